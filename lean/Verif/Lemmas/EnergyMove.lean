import Verif.Model.Normalization
import Mathlib.Data.List.Dedup

/-! Moving timestamps through interpolation and energy (helper lemmas for C130). -/

namespace Verif.Move

/-- the rows with every timestamp moved by `k` nanoseconds -/
def rows {α : Type} (k : Int) (l : List (Int × α)) : List (Int × α) := l.map fun r => (r.1 + k, r.2)

/-- the timestamps moved by `k` nanoseconds -/
def times (k : Int) (l : List Int) : List Int := l.map (· + k)

variable {α : Type} (k : Int)

@[simp] theorem rows_nil : rows k ([] : List (Int × α)) = [] := rfl
@[simp] theorem rows_cons (r : Int × α) (l : List (Int × α)) : rows k (r :: l) = (r.1 + k, r.2) :: rows k l := rfl
@[simp] theorem times_nil : times k [] = [] := rfl
@[simp] theorem times_cons (t : Int) (l : List Int) : times k (t :: l) = (t + k) :: times k l := rfl

theorem rows_fst (l : List (Int × α)) : (rows k l).map Prod.fst = times k (l.map Prod.fst) := by
  simp [rows, times]

theorem rows_snd (l : List (Int × α)) : (rows k l).map Prod.snd = l.map Prod.snd := by
  simp [rows]

theorem rows_length (l : List (Int × α)) : (rows k l).length = l.length := by simp [rows]

theorem lookupK_rows (K : List (Int × Option α)) (t : Int) :
    lookupK (rows k K) (t + k) = lookupK K t := by
  induction K with
  | nil => rfl
  | cons r l ih => simp only [rows_cons, lookupK, ih, Int.add_left_inj]

theorem firstLabelGe_rows (K : List (Int × Option α)) (t : Int) :
    firstLabelGe (rows k K) (t + k) = firstLabelGe K t := by
  induction K with
  | nil => rfl
  | cons r l ih => simp only [rows_cons, firstLabelGe, ih, Int.add_le_add_iff_right]

theorem reindexK_rows (K : List (Int × Option α)) (idx : List Int) :
    reindexK (rows k K) (times k idx) = rows k (reindexK K idx) := by
  simp [reindexK, times, rows, Function.comp_def, ← lookupK_rows k K]

theorem reindexBfill_rows (K : List (Int × Option α)) (idx : List Int) :
    reindexBfill (rows k K) (times k idx) = rows k (reindexBfill K idx) := by
  simp [reindexBfill, times, rows, Function.comp_def, ← firstLabelGe_rows k K]

theorem bfillK_rows (K : List (Int × Option α)) : bfillK (rows k K) = rows k (bfillK K) := by
  induction K with
  | nil => rfl
  | cons r l ih =>
    obtain ⟨t, _ | a⟩ := r
    · simp only [rows_cons, bfillK, ih]
      cases bfillK l with
      | nil => rfl
      | cons x m => rfl
    · simp only [rows_cons, bfillK, ih]

theorem nextValid_rows (l : List (Int × Cell)) :
    nextValid (rows k l) = (nextValid l).map fun r => (r.1 + k, r.2) := by
  induction l with
  | nil => rfl
  | cons r l ih =>
    obtain ⟨t, _ | a⟩ := r
    · simpa [nextValid] using ih
    · rfl

theorem lerpAt_move (a : Int) (va : ℚ) (b : Int) (vb : ℚ) (t : Int) :
    lerpAt (a + k) va (b + k) vb (t + k) = lerpAt a va b vb t := by
  unfold lerpAt
  push_cast
  rw [add_sub_add_right_eq_sub, add_sub_add_right_eq_sub]

theorem interpFrom_rows (p : Option (Int × ℚ)) (l : List (Int × Cell)) :
    interpFrom (p.map fun r => (r.1 + k, r.2)) (rows k l) = rows k (interpFrom p l) := by
  induction l generalizing p with
  | nil => cases p <;> rfl
  | cons r l ih =>
    obtain ⟨t, _ | a⟩ := r
    · simp only [rows_cons, interpFrom, ih p, nextValid_rows]
      cases p with
      | none => rfl
      | some x => cases nextValid l with
        | none => rfl
        | some y => simp only [Option.map_some, lerpAt_move]
    · simp only [rows_cons, interpFrom]
      exact congrArg _ (ih (some (t, a)))

theorem dropna_rows (s : Series) : dropna (rows k s) = rows k (dropna s) := by
  induction s with
  | nil => rfl
  | cons r l ih =>
    obtain ⟨t, _ | a⟩ := r
    · simpa [dropna] using ih
    · simpa [dropna] using ih

theorem toSeries_rows (l : List (Int × ℚ)) : toSeries (rows k l) = rows k (toSeries l) := by
  simp [toSeries, rows]

theorem insertionSort_times (l : List Int) :
    (times k l).insertionSort (· ≤ ·) = times k (l.insertionSort (· ≤ ·)) := by
  unfold times
  rw [List.map_insertionSort (r := (· ≤ ·)) (s := (· ≤ ·))]
  intro a _ b _
  omega

theorem dedup_times (l : List Int) : (times k l).dedup = times k l.dedup := by
  unfold times
  exact List.dedup_map_of_injective (fun a b h => by simpa using h) l

theorem sortedUnion_times (l : List Int) : sortedUnion (times k l) = times k (sortedUnion l) := by
  unfold sortedUnion
  rw [dedup_times, insertionSort_times]

theorem gapsFrom_times (p : Int) (l : List Int) : gapsFrom (p + k) (times k l) = rows k (gapsFrom p l) := by
  induction l generalizing p with
  | nil => rfl
  | cons t l ih =>
    simp only [times_cons, gapsFrom, rows_cons, ih t]
    push_cast
    rw [add_sub_add_right_eq_sub]

theorem gaps_times (l : List Int) : gaps (times k l) = rows k (gaps l) := by
  cases l with
  | nil => rfl
  | cons t l => simp only [times_cons, gaps, rows_cons, gapsFrom_times]

theorem mem_times {t : Int} {l : List Int} : t + k ∈ times k l ↔ t ∈ l := by
  simp [times]

theorem times_append (l m : List Int) : times k (l ++ m) = times k l ++ times k m := by
  simp [times]

theorem filter_rows (l : List (Int × α)) (p : Int × α → Bool) (q : Int × α → Bool)
    (h : ∀ r, q (r.1 + k, r.2) = p r) : (rows k l).filter q = rows k (l.filter p) := by
  unfold rows
  rw [List.filter_map]
  congr 1
  apply List.filter_congr
  intro r _
  exact h r

theorem interpolateSeries_move (ts : Series) (target : List Int) (maxTd : Option ℚ) :
    interpolateSeries (rows k ts) (times k target) maxTd =
      (interpolateSeries ts target maxTd).map (rows k) := by
  unfold interpolateSeries
  have hg : ∀ l, gapLimit (times k l) maxTd = gapLimit l maxTd := by
    intro l; unfold gapLimit; rw [gaps_times, rows_snd]
  simp only [dropna_rows, rows_fst, gaps_times, hg]
  have hn : (times k ((dropna ts).map Prod.fst)).Nodup ↔ ((dropna ts).map Prod.fst).Nodup := by
    unfold times
    exact List.nodup_map_iff (fun a b h => by simpa using h)
  simp only [hn]
  by_cases h : ((dropna ts).map Prod.fst).Nodup
  rotate_left
  · simp only [h, not_false_eq_true, if_true]; rfl
  · simp only [h, not_true_eq_false, if_false, Except.map, ← times_append, sortedUnion_times, reindexK_rows, bfillK_rows, toSeries_rows]
    congr 1
    generalize bfillK (reindexK (gaps ((dropna ts).map Prod.fst))
      (sortedUnion ((dropna ts).map Prod.fst ++ target))) = G
    generalize gapLimit ((dropna ts).map Prod.fst) maxTd = M
    have e1 : (rows k G).map (fun r => if r.1 ∈ times k ((dropna ts).map Prod.fst) then (r.1, (some 0 : Cell)) else r) =
        rows k (G.map fun r => if r.1 ∈ (dropna ts).map Prod.fst then (r.1, (some 0 : Cell)) else r) := by
      unfold rows
      rw [List.map_map, List.map_map]
      apply List.map_congr_left
      intro r _
      simp only [Function.comp_apply, mem_times]
      split_ifs <;> rfl
    rw [e1]
    generalize (G.map fun r => if r.1 ∈ (dropna ts).map Prod.fst then (r.1, (some 0 : Cell)) else r) = G2
    have e2 : ((rows k G2).filter fun r => cellCmp (fun a b => decide (a ≤ b)) r.2 M) =
        rows k (G2.filter fun r => cellCmp (fun a b => decide (a ≤ b)) r.2 M) :=
      filter_rows k G2 _ _ (fun r => rfl)
    rw [e2]
    generalize (G2.filter fun r => cellCmp (fun a b => decide (a ≤ b)) r.2 M) = G3
    have e3 : (rows k G3).map (fun r => (r.1, lookupK (rows k (toSeries (dropna ts))) r.1)) =
        rows k (G3.map fun r => (r.1, lookupK (toSeries (dropna ts)) r.1)) := by
      unfold rows
      rw [List.map_map, List.map_map]
      apply List.map_congr_left
      intro r _
      simp only [Function.comp_apply]
      have := lookupK_rows k (toSeries (dropna ts)) r.1
      unfold rows at this
      rw [this]
    rw [e3]
    have e4 := interpFrom_rows k none (G3.map fun r => (r.1, lookupK (toSeries (dropna ts)) r.1))
    simp only [Option.map_none] at e4
    rw [e4]
    generalize interpFrom none (G3.map fun r => (r.1, lookupK (toSeries (dropna ts)) r.1)) = G4
    unfold times
    rw [List.map_map]
    conv_rhs => unfold rows
    rw [List.map_map]
    apply List.map_congr_left
    intro t _
    simp only [Function.comp_apply, lookupK_rows]

theorem rightLabels_move (t0 tn f : Int) : rightLabels (t0 + k) (tn + k) f = times k (rightLabels t0 tn f) := by
  unfold rightLabels times
  rw [List.map_map, add_sub_add_right_eq_sub]
  apply List.map_congr_left
  intro j _
  simp only [Function.comp_apply]
  ring

theorem dateRange_move (a b f : Int) : dateRange (a + k) (b + k) f = times k (dateRange a b f) := by
  unfold dateRange times
  rw [List.map_map, add_sub_add_right_eq_sub]
  apply List.map_congr_left
  intro j _
  simp only [Function.comp_apply]
  ring

theorem rectTerms_move (p : Int) (l : List (Int × Cell)) :
    rectTerms (p + k) (rows k l) = rows k (rectTerms p l) := by
  induction l generalizing p with
  | nil => rfl
  | cons r l ih =>
    obtain ⟨t, v⟩ := r
    simp only [rows_cons, rectTerms, ih t]
    push_cast
    rw [add_sub_add_right_eq_sub]

theorem trapTerms_move (p : Int × Cell) (l : List (Int × Cell)) :
    trapTerms (p.1 + k, p.2) (rows k l) = rows k (trapTerms p l) := by
  induction l generalizing p with
  | nil => rfl
  | cons r l ih =>
    obtain ⟨t, v⟩ := r
    obtain ⟨q, vp⟩ := p
    have := ih (t, v)
    simp only [rows_cons, trapTerms] at this ⊢
    rw [this]
    push_cast
    rw [add_sub_add_right_eq_sub]

theorem getLastD_times (d : Int) (l : List Int) : (times k l).getLastD (d + k) = l.getLastD d + k := by
  induction l generalizing d with
  | nil => rfl
  | cons a l ih => simp only [times_cons, List.getLastD_cons, ih]

theorem headD_times (d : Int) (l : List Int) : (times k l).headD (d + k) = l.headD d + k := by
  cases l <;> rfl

theorem aggregate_move (ts : Series) (f : Int) (maxNs : ℚ) (ty : PowerType) :
    aggregate (rows k ts) f maxNs ty = (aggregate ts f maxNs ty).map (rows k) := by
  cases ts with
  | nil => rfl
  | cons r0 rest =>
    obtain ⟨t0, v0⟩ := r0
    unfold aggregate
    simp only [rows_cons, List.map_cons, rows_fst]
    have hd : dropna ((t0 + k, v0) :: rows k rest) = rows k (dropna ((t0, v0) :: rest)) :=
      dropna_rows k ((t0, v0) :: rest)
    simp only [hd, ← times_cons]
    cases hD : dropna ((t0, v0) :: rest) with
    | nil => rfl
    | cons d dl =>
      obtain ⟨d0, dv⟩ := d
      simp only [rows_cons]
      have hlast : (times k (t0 :: rest.map Prod.fst)).getLastD (t0 + k) =
          (t0 :: rest.map Prod.fst).getLastD t0 + k := getLastD_times k t0 _
      simp only [hlast, rightLabels_move, ← times_append, sortedUnion_times]
      generalize (t0 :: rest.map Prod.fst).getLastD t0 = tn
      generalize hU : sortedUnion (t0 :: rest.map Prod.fst ++ rightLabels t0 tn f) = U
      have hfst : ((d0 + k, dv) :: rows k dl).map Prod.fst = times k (((d0, dv) :: dl).map Prod.fst) :=
        rows_fst k ((d0, dv) :: dl)
      have hser : toSeries ((d0 + k, dv) :: rows k dl) = rows k (toSeries ((d0, dv) :: dl)) :=
        toSeries_rows k ((d0, dv) :: dl)
      simp only [hfst, hser, gaps_times, reindexBfill_rows, reindexK_rows, headD_times]
      generalize reindexBfill (gaps (((d0, dv) :: dl).map Prod.fst)) U = T
      generalize reindexK (toSeries ((d0, dv) :: dl)) U = V
      have hmask : (rows k T).map (fun r : Int × Cell =>
            cellCmp (fun a b => decide (a > b)) r.2 (some maxNs) ||
              (decide (d0 + k ≠ U.headD d0 + k) && decide (r.1 ≤ d0 + k))) =
          T.map (fun r : Int × Cell => cellCmp (fun a b => decide (a > b)) r.2 (some maxNs) ||
              (decide (d0 ≠ U.headD d0) && decide (r.1 ≤ d0))) := by
        unfold rows
        rw [List.map_map]
        apply List.map_congr_left
        intro r _
        simp only [Function.comp_apply, ne_eq, Int.add_left_inj, Int.add_le_add_iff_right]
      simp only [hmask]
      generalize T.map (fun r : Int × Cell => cellCmp (fun a b => decide (a > b)) r.2 (some maxNs) ||
              (decide (d0 ≠ U.headD d0) && decide (r.1 ≤ d0))) = M
      have hfill : ∀ (F : List (Int × Cell)) (M : List Bool),
          ((rows k F).zip M).map (fun x => if x.2 = true then (x.1.1, (none : Cell)) else x.1) =
          rows k ((F.zip M).map fun x => if x.2 = true then (x.1.1, (none : Cell)) else x.1) := by
        intro F
        induction F with
        | nil => intro M; rfl
        | cons r F ih =>
          intro M
          cases M with
          | nil => rfl
          | cons b M =>
            simp only [rows_cons, List.zip_cons_cons, List.map_cons, ih M]
            cases b <;> rfl
      have hbin : ∀ terms : List (Int × Cell),
          ((times k (rightLabels t0 tn f)).map fun L => (L, sumMinCount1 (((rows k terms).filter fun r =>
            decide (L - f < r.1 ∧ r.1 ≤ L)).map Prod.snd))).tail =
          rows k (((rightLabels t0 tn f).map fun L => (L, sumMinCount1 ((terms.filter fun r =>
            decide (L - f < r.1 ∧ r.1 ≤ L)).map Prod.snd))).tail) := by
        intro terms
        unfold times
        rw [List.map_map]
        conv_rhs => unfold rows
        rw [← List.map_tail, ← List.map_tail, List.map_map]
        apply List.map_congr_left
        intro L _
        simp only [Function.comp_apply]
        rw [filter_rows k terms (fun r => decide (L - f < r.1 ∧ r.1 ≤ L)), rows_snd]
        intro r
        have e : (L + k - f < r.1 + k ∧ r.1 + k ≤ L + k) ↔ (L - f < r.1 ∧ r.1 ≤ L) := by omega
        simp only [e]
      cases ty with
      | other => rfl
      | instantaneous =>
        have hi : interpFrom none (rows k V) = rows k (interpFrom none V) := interpFrom_rows k none V
        simp only [hi, hfill]
        generalize ((interpFrom none V).zip M).map (fun x => if x.2 = true then (x.1.1, (none : Cell)) else x.1) = W
        cases W with
        | nil => rfl
        | cons w W =>
          simp only [rows_cons, trapTerms_move, Except.map]
          rw [← hbin]
          rfl
      | rightLabeled =>
        simp only [bfillK_rows, hfill]
        generalize ((bfillK V).zip M).map (fun x => if x.2 = true then (x.1.1, (none : Cell)) else x.1) = W
        cases W with
        | nil => rfl
        | cons w W =>
          simp only [rows_cons, rectTerms_move, Except.map]
          rw [← hbin]
          rfl

theorem energyFromPower_move (power : Series) (tf : Option Int) (maxTd : Option ℚ) (ty : PowerType)
    (fr : Option Int) :
    energyFromPower (rows k power) tf maxTd ty fr = (energyFromPower power tf maxTd ty fr).map (rows k) := by
  unfold energyFromPower
  simp only [rows_length]
  by_cases h1 : power.length ≤ 1
  · simp only [h1, if_true]
    by_cases h2 : ty = .instantaneous
    · simp only [h2, if_true]; rfl
    · simp only [h2, if_false]
      cases tf with
      | some f => simp [Except.map, rows]
      | none => cases fr with
        | none => rfl
        | some f => simp [Except.map, rows]
  · simp only [h1, if_false, rows_fst, tStepNs, gaps_times, rows_snd]
    cases hp : power with
    | nil => simp [hp] at h1
    | cons r0 rest =>
    cases median (valids ((gaps ((r0 :: rest).map Prod.fst)).map Prod.snd)) with
    | none => rfl
    | some med =>
      simp only
      have hh : (times k ((r0 :: rest).map Prod.fst)).headD 0 = ((r0 :: rest).map Prod.fst).headD 0 + k := rfl
      have hl : (times k ((r0 :: rest).map Prod.fst)).getLastD 0 =
          ((r0 :: rest).map Prod.fst).getLastD 0 + k := by
        simp only [List.map_cons, times_cons, List.getLastD_cons]
        exact getLastD_times k _ _
      rw [hh, hl, dateRange_move, interpolateSeries_move]
      generalize tf.getD ⌊med⌋ = f
      generalize maxTd.getD med = m
      have hpow : (if (f : ℚ) ≤ med then
            (interpolateSeries (r0 :: rest) (dateRange (((r0 :: rest).map Prod.fst).headD 0)
              (((r0 :: rest).map Prod.fst).getLastD 0) f) (some m)).map (rows k)
          else .ok (rows k (r0 :: rest))) =
          (if (f : ℚ) ≤ med then
            interpolateSeries (r0 :: rest) (dateRange (((r0 :: rest).map Prod.fst).headD 0)
              (((r0 :: rest).map Prod.fst).getLastD 0) f) (some m)
          else .ok (r0 :: rest)).map (rows k) := by
        split_ifs <;> rfl
      rw [hpow]
      generalize (if (f : ℚ) ≤ med then
            interpolateSeries (r0 :: rest) (dateRange (((r0 :: rest).map Prod.fst).headD 0)
              (((r0 :: rest).map Prod.fst).getLastD 0) f) (some m)
          else .ok (r0 :: rest) : Except PyErr Series) = P
      cases P with
      | error e => rfl
      | ok p =>
        simp only [Except.map, Except.bind, aggregate_move]
        cases aggregate p f m ty with
        | error e => rfl
        | ok en =>
          simp only [Except.map]
          congr 1
          unfold rows
          rw [List.map_map, List.map_map]
          apply List.map_congr_left
          intro r _
          simp only [Function.comp_apply]
          have := firstLabelGe_rows k (gaps ((r0 :: rest).map Prod.fst)) r.1
          unfold rows at this
          rw [this]
          by_cases hc : cellCmp (fun a b => decide (a > b))
            (firstLabelGe (gaps ((r0 :: rest).map Prod.fst)) r.1) (some m) = true
          · simp only [hc, if_true]
          · simp only [hc]; rfl

end Verif.Move
