import Verif.Model.Normalize
import Verif.Lemmas.Interpolate

/-! Interpolation and energy conversion commute with a change of unit. -/

namespace Verif

/-- all values times `c` -/
def scaleS (c : ℚ) (K : List (Int × Cell)) : List (Int × Cell) :=
  K.map fun r => (r.1, r.2.map (c * ·))

def scaleQ (c : ℚ) (d : List (Int × ℚ)) : List (Int × ℚ) := d.map fun r => (r.1, c * r.2)

theorem fst_scaleS (c : ℚ) (K : List (Int × Cell)) : (scaleS c K).map Prod.fst = K.map Prod.fst := by
  simp [scaleS, Function.comp_def]

theorem fst_scaleQ (c : ℚ) (K : List (Int × ℚ)) : (scaleQ c K).map Prod.fst = K.map Prod.fst := by
  simp [scaleQ, Function.comp_def]

theorem dropna_scaleS (c : ℚ) (K : List (Int × Cell)) : dropna (scaleS c K) = scaleQ c (dropna K) := by
  induction K with
  | nil => rfl
  | cons r K ih =>
    obtain ⟨t, x⟩ := r
    simp only [dropna, scaleS, scaleQ] at ih ⊢
    cases x <;> simp [ih]

theorem lookupK_scaleS (c : ℚ) (K : List (Int × Cell)) (t : Int) :
    lookupK (scaleS c K) t = (lookupK K t).map (c * ·) := by
  induction K with
  | nil => rfl
  | cons r K ih =>
    obtain ⟨u, x⟩ := r
    simp only [scaleS, List.map_cons, lookupK] at ih ⊢
    split
    · rfl
    · exact ih

theorem toSeries_scaleQ (c : ℚ) (d : List (Int × ℚ)) :
    toSeries (scaleQ c d) = scaleS c (toSeries d) := by
  simp [toSeries, scaleQ, scaleS, Function.comp_def]

theorem nextValid_scaleS (c : ℚ) (K : List (Int × Cell)) :
    nextValid (scaleS c K) = (nextValid K).map fun r => (r.1, c * r.2) := by
  induction K with
  | nil => rfl
  | cons r K ih =>
    obtain ⟨u, x⟩ := r
    cases x with
    | none => simpa [scaleS, nextValid] using ih
    | some v => simp [scaleS, nextValid]

theorem lerpAt_scale (c : ℚ) (a : Int) (va : ℚ) (b : Int) (vb : ℚ) (t : Int) :
    lerpAt a (c * va) b (c * vb) t = c * lerpAt a va b vb t := by
  unfold lerpAt; ring

theorem interpFrom_scaleS (c : ℚ) (p : Option (Int × ℚ)) (K : List (Int × Cell)) :
    interpFrom (p.map fun r => (r.1, c * r.2)) (scaleS c K) = scaleS c (interpFrom p K) := by
  induction K generalizing p with
  | nil => cases p <;> rfl
  | cons r K ih =>
    obtain ⟨u, x⟩ := r
    cases x with
    | some v =>
      have := ih (some (u, v))
      simp only [Option.map_some] at this
      simp only [scaleS, List.map_cons, Option.map_some, interpFrom] at this ⊢
      rw [this]
    | none =>
      have h := ih p
      have hnv := nextValid_scaleS c K
      simp only [scaleS, List.map_cons, Option.map_none, interpFrom] at h hnv ⊢
      rw [h, hnv]
      congr 2
      cases p with
      | none => rfl
      | some q =>
        cases nextValid K with
        | none => rfl
        | some s => simp [lerpAt_scale]

theorem bfillK_scaleS (c : ℚ) (K : List (Int × Cell)) : bfillK (scaleS c K) = scaleS c (bfillK K) := by
  induction K with
  | nil => rfl
  | cons r K ih =>
    obtain ⟨u, x⟩ := r
    cases x with
    | some v =>
      simp only [scaleS, List.map_cons, Option.map_some, bfillK] at ih ⊢
      rw [ih]
    | none =>
      simp only [scaleS, List.map_cons, Option.map_none, bfillK] at ih ⊢
      rw [ih]
      congr 2
      cases bfillK K with
      | nil => rfl
      | cons s l => rfl

theorem reindexK_scaleS (c : ℚ) (K : List (Int × Cell)) (idx : List Int) :
    reindexK (scaleS c K) idx = scaleS c (reindexK K idx) := by
  simp [reindexK, scaleS, Function.comp_def]
  intro t _
  exact lookupK_scaleS c K t

theorem interpolateSeries_scale (c : ℚ) (ts : Series) (target : List Int) (maxTd : Option ℚ) :
    interpolateSeries (scaleS c ts) target maxTd =
      (interpolateSeries ts target maxTd).map (scaleS c) := by
  unfold interpolateSeries
  rw [dropna_scaleS]
  dsimp only
  rw [fst_scaleQ, toSeries_scaleQ]
  split
  · rfl
  · simp only [Except.map]
    congr 1
    simp only [lookupK_scaleS]
    generalize List.filter _ _ = F
    have : (F.map fun r => (r.1, Option.map (fun x => c * x) (lookupK (toSeries (dropna ts)) r.1))) =
        scaleS c (F.map fun r => (r.1, lookupK (toSeries (dropna ts)) r.1)) := by
      simp [scaleS, Function.comp_def]
    rw [this]
    have h2 := interpFrom_scaleS c none (F.map fun r => (r.1, lookupK (toSeries (dropna ts)) r.1))
    rw [Option.map_none] at h2
    rw [h2]
    simp only [lookupK_scaleS]
    simp [scaleS, Function.comp_def]

theorem rectTerms_scale (c : ℚ) (p : Int) (K : List (Int × Cell)) :
    rectTerms p (scaleS c K) = scaleS c (rectTerms p K) := by
  induction K generalizing p with
  | nil => rfl
  | cons r K ih =>
    obtain ⟨u, x⟩ := r
    have := ih u
    simp only [scaleS, List.map_cons, rectTerms] at this ⊢
    rw [this]
    cases x <;> simp [mul_assoc]

theorem trapTerms_scale (c : ℚ) (q : Int × Cell) (K : List (Int × Cell)) :
    trapTerms (q.1, q.2.map (c * ·)) (scaleS c K) = scaleS c (trapTerms q K) := by
  induction K generalizing q with
  | nil => obtain ⟨a, b⟩ := q; rfl
  | cons r K ih =>
    obtain ⟨u, x⟩ := r
    obtain ⟨a, b⟩ := q
    have := ih (u, x)
    simp only [scaleS, List.map_cons, trapTerms] at this ⊢
    rw [this]
    congr 2
    cases x <;> cases b <;> simp [cellOp]
    ring

theorem sumMinCount1_scale (c : ℚ) (l : List Cell) :
    sumMinCount1 (l.map fun x => x.map (c * ·)) = (sumMinCount1 l).map (c * ·) := by
  have hv : valids (l.map fun x => x.map (c * ·)) = (valids l).map (c * ·) := by
    unfold valids
    rw [List.filterMap_map, List.map_filterMap]
    apply List.filterMap_congr
    intro x _; cases x <;> rfl
  unfold sumMinCount1
  rw [hv]
  cases valids l with
  | nil => rfl
  | cons a l =>
    simp only [List.map_cons, Option.map_some, Option.some.injEq]
    have : ∀ l : List ℚ, (l.map (c * ·)).sum = c * l.sum := by
      intro l
      induction l with
      | nil => simp
      | cons a l ih => simp [ih, mul_add]
    rw [← List.map_cons, this]

theorem binStep_scale (c : ℚ) (labels : List Int) (f : Int) (terms : List (Int × Cell)) :
    ((labels.map fun L => (L, sumMinCount1 (((scaleS c terms).filter
      fun r => decide (L - f < r.1 ∧ r.1 ≤ L)).map Prod.snd))).tail) =
    scaleS c ((labels.map fun L => (L, sumMinCount1 ((terms.filter
      fun r => decide (L - f < r.1 ∧ r.1 ≤ L)).map Prod.snd))).tail) := by
  unfold scaleS
  rw [List.map_tail, List.map_map]
  congr 1
  apply List.map_congr_left
  intro L _
  simp only [Function.comp_apply]
  congr 1
  rw [← sumMinCount1_scale, List.filter_map, List.map_map, List.map_map]
  rfl

theorem fill_scale (c : ℚ) (F : List (Int × Cell)) (mask : List Bool) :
    ((scaleS c F).zip mask).map (fun x => if x.2 then (x.1.1, none) else x.1) =
      scaleS c ((F.zip mask).map fun x => if x.2 then (x.1.1, none) else x.1) := by
  unfold scaleS
  rw [List.zip_map_left, List.map_map, List.map_map]
  apply List.map_congr_left
  intro x _
  simp only [Function.comp_apply, Prod.map_fst, Prod.map_snd, id_eq]
  split <;> rfl

theorem aggregate_scale (c : ℚ) (ts : Series) (f : Int) (m : ℚ) (ty : PowerType) :
    aggregate (scaleS c ts) f m ty = (aggregate ts f m ty).map (scaleS c) := by
  unfold aggregate
  rw [fst_scaleS, dropna_scaleS]
  cases ts.map Prod.fst with
  | nil => rfl
  | cons t0 trest =>
    dsimp only
    cases hd : dropna ts with
    | nil => rfl
    | cons r l =>
      have e1 : scaleQ c (r :: l) = (r.1, c * r.2) :: scaleQ c l := rfl
      have e2 : List.map Prod.fst ((r.1, c * r.2) :: scaleQ c l) = List.map Prod.fst (r :: l) := by
        rw [← e1, fst_scaleQ]
      have e3 : toSeries ((r.1, c * r.2) :: scaleQ c l) = scaleS c (toSeries (r :: l)) := by
        rw [← e1, toSeries_scaleQ]
      obtain ⟨d0, v0⟩ := r
      dsimp only at e1 e2 e3
      rw [e1]
      dsimp only
      rw [e2, e3, reindexK_scaleS]
      cases ty with
      | other => rfl
      | instantaneous =>
        dsimp only
        have h := interpFrom_scaleS c none (reindexK (toSeries ((d0, v0) :: l))
          (sortedUnion (t0 :: trest ++ rightLabels t0 ((t0 :: trest).getLastD t0) f)))
        rw [Option.map_none] at h
        rw [h, fill_scale]
        generalize List.map _ (List.zip (interpFrom _ _) _) = V
        cases V with
        | nil => rfl
        | cons r V =>
          have : scaleS c (r :: V) = (r.1, r.2.map (c * ·)) :: scaleS c V := rfl
          rw [this]
          dsimp only
          rw [trapTerms_scale]
          have h2 : (r.1, (none : Cell)) :: scaleS c (trapTerms r V) =
            scaleS c ((r.1, none) :: trapTerms r V) := rfl
          rw [h2, binStep_scale]
          rfl
      | rightLabeled =>
        dsimp only
        rw [bfillK_scaleS, fill_scale]
        generalize List.map _ (List.zip (bfillK _) _) = V
        cases V with
        | nil => rfl
        | cons r V =>
          have : scaleS c (r :: V) = (r.1, r.2.map (c * ·)) :: scaleS c V := rfl
          rw [this]
          dsimp only
          rw [rectTerms_scale]
          have h2 : (r.1, (none : Cell)) :: scaleS c (rectTerms r.1 V) =
            scaleS c ((r.1, none) :: rectTerms r.1 V) := rfl
          rw [h2, binStep_scale]
          rfl

theorem energyFromPower_scale (c : ℚ) (p : Series) (tf : Option Int) (maxTd : Option ℚ)
    (ty : PowerType) (fr : Option Int) :
    energyFromPower (scaleS c p) tf maxTd ty fr =
      (energyFromPower p tf maxTd ty fr).map (scaleS c) := by
  unfold energyFromPower
  have hlen : (scaleS c p).length = p.length := by simp [scaleS]
  rw [hlen, fst_scaleS]
  split
  · split
    · rfl
    · have : ∀ f : Int, (scaleS c p).map (fun r => (r.1, r.2.map fun x => x * f / hourNs)) =
          scaleS c (p.map fun r => (r.1, r.2.map fun x => x * f / hourNs)) := by
        intro f
        unfold scaleS
        rw [List.map_map, List.map_map]
        apply List.map_congr_left
        intro r _
        simp only [Function.comp_apply]
        congr 1
        cases r.2 with
        | none => rfl
        | some x => simp; ring
      cases tf with
      | none =>
        cases fr with
        | none => rfl
        | some f => simp only [Except.map, this]
      | some f => simp only [Except.map, this]
  · dsimp only
    cases median (valids ((tStepNs (p.map Prod.fst)).map Prod.snd)) with
    | none => rfl
    | some g =>
      dsimp only
      have hmask : ∀ (E : List (Int × Cell)) (q : Int → Bool),
          (scaleS c E).map (fun r => if q r.1 then (r.1, none) else r) =
          scaleS c (E.map fun r => if q r.1 then (r.1, none) else r) := by
        intro E q
        unfold scaleS
        rw [List.map_map, List.map_map]
        apply List.map_congr_left
        intro r _
        simp only [Function.comp_apply]
        split <;> rfl
      have hrest : ∀ p' : Series, ((aggregate (scaleS c p') (tf.getD ⌊g⌋) (maxTd.getD g) ty).bind
          fun energy => Except.ok (energy.map fun r =>
            if cellCmp (fun a b => decide (a > b)) (firstLabelGe (tStepNs (p.map Prod.fst)) r.1)
              (some (maxTd.getD g)) then (r.1, none) else r)) =
          (((aggregate p' (tf.getD ⌊g⌋) (maxTd.getD g) ty).bind
          fun energy => (Except.ok (energy.map fun r =>
            if cellCmp (fun a b => decide (a > b)) (firstLabelGe (tStepNs (p.map Prod.fst)) r.1)
              (some (maxTd.getD g)) then (r.1, none) else r) : Except PyErr _))).map (scaleS c) := by
        intro p'
        rw [aggregate_scale]
        cases aggregate p' (tf.getD ⌊g⌋) (maxTd.getD g) ty with
        | error e => rfl
        | ok E =>
          simp only [Except.map, Except.bind]
          rw [hmask E (fun t => cellCmp (fun a b => decide (a > b))
            (firstLabelGe (tStepNs (p.map Prod.fst)) t) (some (maxTd.getD g)))]
      split
      · rw [interpolateSeries_scale]
        cases interpolateSeries p _ _ with
        | error e => rfl
        | ok p' => exact hrest p'
      · exact hrest p

end Verif
