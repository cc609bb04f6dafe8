import Verif.Lemmas.Scaling

/-! Interpolation and energy conversion are linear in the power.

Two series on one index with the same missing values are one list of pairs; `pr w` reads off the
combination with the weights `w`. A step is linear if it acts on the pairs, whatever the weights. -/

namespace Verif.Linear

/-- the values of two series at one time -/
abbrev Two := ℚ × ℚ

def lin (w x : Two) : ℚ := w.1 * x.1 + w.2 * x.2

def pr (w : Two) (P : List (Int × Option Two)) : Series := P.map fun r => (r.1, r.2.map (lin w))
def prQ (w : Two) (d : List (Int × Two)) : List (Int × ℚ) := d.map fun r => (r.1, lin w r.2)

theorem fst_pr (w : Two) (P : List (Int × Option Two)) : (pr w P).map Prod.fst = P.map Prod.fst := by
  simp [pr, Function.comp_def]

theorem fst_prQ (w : Two) (P : List (Int × Two)) : (prQ w P).map Prod.fst = P.map Prod.fst := by
  simp [prQ, Function.comp_def]

def dropnaP (P : List (Int × Option Two)) : List (Int × Two) :=
  P.filterMap fun r => r.2.map fun v => (r.1, v)

theorem dropna_pr (w : Two) (P : List (Int × Option Two)) : dropna (pr w P) = prQ w (dropnaP P) := by
  unfold dropna pr prQ dropnaP
  rw [List.filterMap_map, List.map_filterMap]
  apply List.filterMap_congr
  intro r _
  cases h : r.2 <;> simp [h]

theorem lookupK_pr (w : Two) (P : List (Int × Option Two)) (t : Int) :
    lookupK (pr w P) t = (lookupK P t).map (lin w) := by
  induction P with
  | nil => rfl
  | cons r P ih =>
    obtain ⟨u, x⟩ := r
    simp only [pr, List.map_cons, lookupK] at ih ⊢
    split
    · rfl
    · exact ih

def toSeriesP (d : List (Int × Two)) : List (Int × Option Two) := d.map fun r => (r.1, some r.2)

theorem toSeries_prQ (w : Two) (d : List (Int × Two)) : toSeries (prQ w d) = pr w (toSeriesP d) := by
  simp [toSeries, prQ, pr, toSeriesP, Function.comp_def]

theorem reindexK_pr (w : Two) (P : List (Int × Option Two)) (idx : List Int) :
    reindexK (pr w P) idx = pr w (reindexK P idx) := by
  simp only [reindexK, lookupK_pr]
  simp [pr, Function.comp_def]

theorem bfillK_pr (w : Two) (P : List (Int × Option Two)) : bfillK (pr w P) = pr w (bfillK P) := by
  induction P with
  | nil => rfl
  | cons r P ih =>
    obtain ⟨u, x⟩ := r
    cases x with
    | some v =>
      simp only [pr, List.map_cons, Option.map_some, bfillK] at ih ⊢
      rw [ih]
    | none =>
      simp only [pr, List.map_cons, Option.map_none, bfillK] at ih ⊢
      rw [ih]
      congr 2
      cases bfillK P with
      | nil => rfl
      | cons s l => rfl

theorem nextValid_pr (P : List (Int × Option Two)) :
    ∃ nv : Option (Int × Two), ∀ w, nextValid (pr w P) = nv.map fun r => (r.1, lin w r.2) := by
  induction P with
  | nil => exact ⟨none, fun _ => rfl⟩
  | cons r P ih =>
    obtain ⟨u, x⟩ := r
    cases x with
    | some v => exact ⟨some (u, v), fun _ => rfl⟩
    | none => exact ih

theorem lerpAt_lin (w : Two) (a : Int) (va : Two) (b : Int) (vb : Two) (t : Int) :
    lerpAt a (lin w va) b (lin w vb) t = lin w (lerpAt a va.1 b vb.1 t, lerpAt a va.2 b vb.2 t) := by
  unfold lerpAt lin; ring

theorem interpFrom_pr (p : Option (Int × Two)) (P : List (Int × Option Two)) :
    ∃ Q, ∀ w, interpFrom (p.map fun r => (r.1, lin w r.2)) (pr w P) = pr w Q := by
  induction P generalizing p with
  | nil => exact ⟨[], fun w => by cases p <;> rfl⟩
  | cons r P ih =>
    obtain ⟨u, x⟩ := r
    cases x with
    | some v =>
      obtain ⟨Q, hQ⟩ := ih (some (u, v))
      refine ⟨(u, some v) :: Q, fun w => ?_⟩
      have h := hQ w
      simp only [Option.map_some] at h
      simp only [pr, List.map_cons, Option.map_some, interpFrom] at h ⊢
      rw [h]
    | none =>
      obtain ⟨Q, hQ⟩ := ih p
      obtain ⟨nv, hnv⟩ := nextValid_pr P
      cases p with
      | none =>
        refine ⟨(u, none) :: Q, fun w => ?_⟩
        have h := hQ w
        simp only [Option.map_none] at h
        simp only [pr, List.map_cons, Option.map_none, interpFrom] at h ⊢
        rw [h]
      | some q =>
        cases nv with
        | none =>
          refine ⟨(u, some q.2) :: Q, fun w => ?_⟩
          have h := hQ w
          have h2 := hnv w
          simp only [Option.map_some, Option.map_none] at h h2
          simp only [pr, List.map_cons, Option.map_none, Option.map_some, interpFrom] at h h2 ⊢
          rw [h, h2]
        | some z =>
          refine ⟨(u, some (lerpAt q.1 q.2.1 z.1 z.2.1 u, lerpAt q.1 q.2.2 z.1 z.2.2 u)) :: Q,
            fun w => ?_⟩
          have h := hQ w
          have h2 := hnv w
          simp only [Option.map_some] at h h2
          simp only [pr, List.map_cons, Option.map_none, Option.map_some, interpFrom] at h h2 ⊢
          rw [h, h2]
          simp only [lerpAt_lin]

theorem interpolateSeries_pr (P : List (Int × Option Two)) (target : List Int) (maxTd : Option ℚ) :
    ∃ R : Except PyErr (List (Int × Option Two)),
      ∀ w, interpolateSeries (pr w P) target maxTd = R.map (pr w) := by
  unfold interpolateSeries
  simp only [dropna_pr, fst_prQ, toSeries_prQ, lookupK_pr]
  by_cases hnd : ¬ ((dropnaP P).map Prod.fst).Nodup
  · simp only [if_pos hnd]
    exact ⟨.error .valueError, fun w => rfl⟩
  · simp only [if_neg hnd]
    generalize List.filter (α := Int × Cell) _ _ = F
    obtain ⟨Q, hQ⟩ := interpFrom_pr none (F.map fun r => (r.1, lookupK (toSeriesP (dropnaP P)) r.1))
    refine ⟨.ok (target.map fun t => (t, lookupK Q t)), fun w => ?_⟩
    have h := hQ w
    rw [Option.map_none] at h
    have e : (F.map fun r => (r.1, Option.map (lin w) (lookupK (toSeriesP (dropnaP P)) r.1))) =
        pr w (F.map fun r => (r.1, lookupK (toSeriesP (dropnaP P)) r.1)) := by
      simp [pr, Function.comp_def]
    rw [e, h]
    simp only [Except.map, lookupK_pr]
    simp [pr, Function.comp_def]

theorem rectTerms_pr (p : Int) (P : List (Int × Option Two)) :
    ∃ Q, ∀ w, rectTerms p (pr w P) = pr w Q := by
  induction P generalizing p with
  | nil => exact ⟨[], fun _ => rfl⟩
  | cons r P ih =>
    obtain ⟨u, x⟩ := r
    obtain ⟨Q, hQ⟩ := ih u
    refine ⟨(u, x.map fun v => (v.1 * (((u : ℚ) - p) / hourNs), v.2 * (((u : ℚ) - p) / hourNs))) :: Q,
      fun w => ?_⟩
    have h := hQ w
    simp only [pr, List.map_cons, rectTerms] at h ⊢
    rw [h]
    cases x with
    | none => rfl
    | some v => simp only [Option.map_some, lin]; congr 3; ring

theorem trapTerms_pr (q : Int × Option Two) (P : List (Int × Option Two)) :
    ∃ Q, ∀ w, trapTerms (q.1, q.2.map (lin w)) (pr w P) = pr w Q := by
  induction P generalizing q with
  | nil => exact ⟨[], fun _ => by obtain ⟨a, b⟩ := q; rfl⟩
  | cons r P ih =>
    obtain ⟨u, x⟩ := r
    obtain ⟨a, b⟩ := q
    obtain ⟨Q, hQ⟩ := ih (u, x)
    cases x with
    | none =>
      refine ⟨(u, none) :: Q, fun w => ?_⟩
      have h := hQ w
      simp only [pr, List.map_cons, trapTerms, Option.map_none, cellOp] at h ⊢
      rw [h]
    | some v =>
      cases b with
      | none =>
        refine ⟨(u, none) :: Q, fun w => ?_⟩
        have h := hQ w
        simp only [pr, List.map_cons, trapTerms, Option.map_none, Option.map_some, cellOp] at h ⊢
        rw [h]
      | some z =>
        refine ⟨(u, some ((v.1 + z.1) / 2 * (((u : ℚ) - a) / hourNs),
          (v.2 + z.2) / 2 * (((u : ℚ) - a) / hourNs))) :: Q, fun w => ?_⟩
        have h := hQ w
        simp only [pr, List.map_cons, trapTerms, Option.map_some, cellOp, lin] at h ⊢
        rw [h]
        congr 3
        ring

theorem sumMinCount1_pr (l : List (Option Two)) :
    ∃ c : Option Two, ∀ w, sumMinCount1 (l.map fun x => x.map (lin w)) = c.map (lin w) := by
  have hv : ∀ w, valids (l.map fun x => x.map (lin w)) = (l.filterMap id).map (lin w) := by
    intro w
    unfold valids
    rw [List.filterMap_map, List.map_filterMap]
    apply List.filterMap_congr
    intro x _; cases x <;> rfl
  unfold sumMinCount1
  simp only [hv]
  cases l.filterMap id with
  | nil => exact ⟨none, fun _ => rfl⟩
  | cons a l =>
    have : ∀ (w : Two) (l : List Two), (l.map (lin w)).sum = lin w ((l.map Prod.fst).sum, (l.map Prod.snd).sum) := by
      intro w l
      induction l with
      | nil => simp [lin]
      | cons a l ih => simp only [List.map_cons, List.sum_cons, ih, lin]; ring
    refine ⟨some (((a :: l).map Prod.fst).sum, ((a :: l).map Prod.snd).sum), fun w => ?_⟩
    simp only [List.map_cons, Option.map_some, Option.some.injEq]
    rw [← List.map_cons, this]
    simp

theorem binStep_pr (labels : List Int) (f : Int) (T : List (Int × Option Two)) :
    ∃ Q, ∀ w, ((labels.map fun L => (L, sumMinCount1 (((pr w T).filter
      fun r => decide (L - f < r.1 ∧ r.1 ≤ L)).map Prod.snd))).tail) = pr w Q := by
  have h : ∀ L : Int, ∃ c : Option Two, ∀ w, sumMinCount1 (((pr w T).filter
      fun r => decide (L - f < r.1 ∧ r.1 ≤ L)).map Prod.snd) = c.map (lin w) := by
    intro L
    obtain ⟨c, hc⟩ := sumMinCount1_pr ((T.filter fun r => decide (L - f < r.1 ∧ r.1 ≤ L)).map Prod.snd)
    refine ⟨c, fun w => ?_⟩
    rw [← hc, pr, List.filter_map, List.map_map, List.map_map]
    rfl
  choose g hg using h
  refine ⟨(labels.map fun L => (L, g L)).tail, fun w => ?_⟩
  unfold pr
  rw [List.map_tail, List.map_map]
  congr 1
  apply List.map_congr_left
  intro L _
  simp only [Function.comp_apply]
  rw [← hg]
  rfl

theorem fill_pr (w : Two) (F : List (Int × Option Two)) (mask : List Bool) :
    ((pr w F).zip mask).map (fun x => if x.2 then (x.1.1, none) else x.1) =
      pr w ((F.zip mask).map fun x => if x.2 then (x.1.1, none) else x.1) := by
  unfold pr
  rw [List.zip_map_left, List.map_map, List.map_map]
  apply List.map_congr_left
  intro x _
  simp only [Function.comp_apply, Prod.map_fst, Prod.map_snd, id_eq]
  split <;> rfl

theorem aggregate_pr (P : List (Int × Option Two)) (f : Int) (m : ℚ) (ty : PowerType) :
    ∃ R : Except PyErr (List (Int × Option Two)), ∀ w, aggregate (pr w P) f m ty = R.map (pr w) := by
  unfold aggregate
  simp only [fst_pr, dropna_pr]
  cases P.map Prod.fst with
  | nil => exact ⟨.error .indexError, fun _ => rfl⟩
  | cons t0 trest =>
    dsimp only
    cases hd : dropnaP P with
    | nil => exact ⟨.error .indexError, fun _ => rfl⟩
    | cons r l =>
      have e1 : ∀ w, prQ w (r :: l) = (r.1, lin w r.2) :: prQ w l := fun _ => rfl
      have e2 : ∀ w, List.map Prod.fst ((r.1, lin w r.2) :: prQ w l) = List.map Prod.fst (r :: l) := by
        intro w; rw [← e1, fst_prQ]
      have e3 : ∀ w, toSeries ((r.1, lin w r.2) :: prQ w l) = pr w (toSeriesP (r :: l)) := by
        intro w; rw [← e1, toSeries_prQ]
      obtain ⟨d0, v0⟩ := r
      dsimp only at e1 e2 e3
      simp only [e1, e2, e3, reindexK_pr]
      cases ty with
      | other => exact ⟨.error .valueError, fun _ => rfl⟩
      | instantaneous =>
        dsimp only
        obtain ⟨Q, hQ⟩ := interpFrom_pr none (reindexK (toSeriesP ((d0, v0) :: l))
          (sortedUnion (t0 :: trest ++ rightLabels t0 ((t0 :: trest).getLastD t0) f)))
        simp only [Option.map_none] at hQ
        simp only [hQ, fill_pr]
        generalize List.map _ (List.zip Q _) = V
        cases V with
        | nil => exact ⟨.error .indexError, fun _ => rfl⟩
        | cons r V =>
          obtain ⟨T, hT⟩ := trapTerms_pr r V
          obtain ⟨B, hB⟩ := binStep_pr (rightLabels t0 ((t0 :: trest).getLastD t0) f) f ((r.1, none) :: T)
          refine ⟨.ok B, fun w => ?_⟩
          have h1 : pr w (r :: V) = (r.1, r.2.map (lin w)) :: pr w V := rfl
          rw [h1]
          dsimp only
          rw [hT w]
          have h2 : (r.1, (none : Cell)) :: pr w T = pr w ((r.1, none) :: T) := rfl
          rw [h2, hB w]
          rfl
      | rightLabeled =>
        dsimp only
        simp only [bfillK_pr, fill_pr]
        generalize List.map _ (List.zip (bfillK _) _) = V
        cases V with
        | nil => exact ⟨.error .indexError, fun _ => rfl⟩
        | cons r V =>
          obtain ⟨T, hT⟩ := rectTerms_pr r.1 V
          obtain ⟨B, hB⟩ := binStep_pr (rightLabels t0 ((t0 :: trest).getLastD t0) f) f ((r.1, none) :: T)
          refine ⟨.ok B, fun w => ?_⟩
          have h1 : pr w (r :: V) = (r.1, r.2.map (lin w)) :: pr w V := rfl
          rw [h1]
          dsimp only
          rw [hT w]
          have h2 : (r.1, (none : Cell)) :: pr w T = pr w ((r.1, none) :: T) := rfl
          rw [h2, hB w]
          rfl

theorem energyFromPower_pr (P : List (Int × Option Two)) (tf : Option Int) (maxTd : Option ℚ)
    (ty : PowerType) (fr : Option Int) :
    ∃ R : Except PyErr (List (Int × Option Two)),
      ∀ w, energyFromPower (pr w P) tf maxTd ty fr = R.map (pr w) := by
  have hlen : ∀ w, (pr w P).length = P.length := fun w => by simp [pr]
  unfold energyFromPower
  simp only [hlen, fst_pr]
  split_ifs
  · exact ⟨.error .valueError, fun _ => rfl⟩
  · have : ∀ (f : Int) (w : Two), (pr w P).map (fun r => (r.1, r.2.map fun x => x * f / hourNs)) =
        pr w (P.map fun r => (r.1, r.2.map fun x => (x.1 * f / hourNs, x.2 * f / hourNs))) := by
      intro f w
      unfold pr
      rw [List.map_map, List.map_map]
      apply List.map_congr_left
      intro r _
      simp only [Function.comp_apply]
      congr 1
      cases r.2 with
      | none => rfl
      | some x => simp only [Option.map_some, lin]; congr 1; ring
    simp only [this]
    cases tf with
    | none =>
      cases fr with
      | none => exact ⟨.error .valueError, fun _ => rfl⟩
      | some f => exact ⟨.ok _, fun _ => rfl⟩
    | some f => exact ⟨.ok _, fun _ => rfl⟩
  · cases median (valids ((tStepNs (P.map Prod.fst)).map Prod.snd)) with
    | none => exact ⟨.error .valueError, fun _ => rfl⟩
    | some g =>
      dsimp only
      have hrest : ∀ P' : List (Int × Option Two), ∃ R : Except PyErr (List (Int × Option Two)), ∀ w,
          ((aggregate (pr w P') (tf.getD ⌊g⌋) (maxTd.getD g) ty).bind
          fun energy => Except.ok (energy.map fun r =>
            if cellCmp (fun a b => decide (a > b)) (firstLabelGe (tStepNs (P.map Prod.fst)) r.1)
              (some (maxTd.getD g)) then (r.1, none) else r)) = R.map (pr w) := by
        intro P'
        obtain ⟨R, hR⟩ := aggregate_pr P' (tf.getD ⌊g⌋) (maxTd.getD g) ty
        simp only [hR]
        cases R with
        | error e => exact ⟨.error e, fun _ => rfl⟩
        | ok E =>
          refine ⟨.ok (E.map fun r => if cellCmp (fun a b => decide (a > b))
            (firstLabelGe (tStepNs (P.map Prod.fst)) r.1) (some (maxTd.getD g)) then (r.1, none) else r),
            fun w => ?_⟩
          simp only [Except.map, Except.bind]
          congr 1
          unfold pr
          rw [List.map_map, List.map_map]
          apply List.map_congr_left
          intro r _
          simp only [Function.comp_apply]
          split <;> rfl
      split_ifs
      · obtain ⟨R, hR⟩ := interpolateSeries_pr P (dateRange ((P.map Prod.fst).headD 0)
          ((P.map Prod.fst).getLastD 0) (tf.getD ⌊g⌋)) (some (maxTd.getD g))
        simp only [hR]
        cases R with
        | error e => exact ⟨.error e, fun _ => rfl⟩
        | ok P' => exact hrest P'
      · exact hrest P

end Verif.Linear
