import Verif.Lemmas.SrrSplit
import Verif.Lemmas.Filtering

/-! # The SRR analysis under a change of units and of dates -/

namespace Verif

/-- the series `s` ns later, all values times `c` -/
def moveS (c : ℚ) (s : Int) (K : Series) : Series := K.map fun r => (r.1 + s, r.2.map (c * ·))

def moveDay (a b c : ℚ) (s : Int) (d : SrrDay) : SrrDay :=
  ⟨d.t + s, d.pi.map (a * ·), d.insol.map (b * ·), d.precip.map (c * ·)⟩

def moveRow (a b : ℚ) (s : Int) (d : SrrRow) : SrrRow :=
  { d with t := d.t + s, pi := a * d.pi, insol := b * d.insol }

def moveInt (s : Int) (i : Interval) : Interval := { i with start := i.start + s, stop := i.stop + s }

def movePair (a b : ℚ) (s : Int) (x : SrrRow × Option Interval) : SrrRow × Option Interval :=
  (moveRow a b s x.1, x.2.map (moveInt s))

theorem lookupK_moveS (c : ℚ) (s : Int) (K : Series) (t : Int) :
    lookupK (moveS c s K) (t + s) = (lookupK K t).map (c * ·) := by
  induction K with
  | nil => rfl
  | cons r K ih =>
    obtain ⟨u, x⟩ := r
    simp only [moveS, List.map_cons, lookupK, add_left_inj] at ih ⊢
    split
    · rfl
    · exact ih

theorem dayStepped_move (s : Int) (l : List Int) : dayStepped (l.map (· + s)) = dayStepped l := by
  induction l with
  | nil => rfl
  | cons a l ih =>
    cases l with
    | nil => rfl
    | cons b l =>
      simp only [List.map_cons, dayStepped] at ih ⊢
      rw [ih]
      congr 1
      simp only [decide_eq_decide]
      omega

theorem isDaily_move (c : ℚ) (s : Int) (K : Series) :
    isDaily (moveS c s K).index = isDaily K.index := by
  have : (moveS c s K).index = K.index.map (· + s) := by
    simp [moveS, Series.index, Function.comp_def]
  rw [this]
  unfold isDaily
  rw [dayStepped_move, List.length_map]

theorem srrInit_move (a b c : ℚ) (s : Int) (pm insol : Series) (precip : Option Series) :
    srrInit (moveS a s pm) (moveS b s insol) (precip.map (moveS c s)) = srrInit pm insol precip := by
  unfold srrInit
  rw [isDaily_move, isDaily_move]
  cases precip with
  | none => rfl
  | some p => simp only [Option.map_some, isDaily_move]

theorem srrJoin_move (a b c : ℚ) (s : Int) (pm insol : Series) (precip : Option Series) :
    srrJoin (moveS a s pm) (moveS b s insol) (precip.map (moveS c s)) =
      (srrJoin pm insol precip).map (moveDay a b c s) := by
  unfold srrJoin
  conv_lhs => unfold moveS
  rw [List.map_map, List.map_map]
  apply List.map_congr_left
  rintro ⟨t, x⟩ -
  simp only [Function.comp_apply, moveDay]
  have h := lookupK_moveS b s insol t
  unfold moveS at h
  rw [h]
  cases precip with
  | none => simp
  | some p =>
    have h := lookupK_moveS c s p t
    unfold moveS at h
    simp only [Option.map_some]
    rw [← h]

theorem trimMissing_move (a b c : ℚ) (s : Int) (df : List SrrDay) :
    trimMissing (df.map (moveDay a b c s)) = (trimMissing df).map (moveDay a b c s) := by
  unfold trimMissing
  have h : ((fun d : SrrDay => d.pi.isNone) ∘ moveDay a b c s) = fun d => d.pi.isNone := by
    funext d; simp [moveDay]
  rw [List.dropWhile_map, h, ← List.map_reverse, List.dropWhile_map, h, ← List.map_reverse]

theorem srrRenorm_move {a : ℚ} (ha : a ≠ 0) {rec : Bool} (hrec : rec = true ∨ a = 1) (pi : List Cell) :
    srrRenorm rec (pi.map fun x => x.map (a * ·)) = (srrRenorm rec pi).map (a * ·) := by
  cases rec with
  | true =>
    simp only [srrRenorm, if_true]
    rw [← List.map_take, valids_scale, median_mul ha]
  | false =>
    have h1 : a = 1 := by simpa using hrec
    simp [srrRenorm, h1]

theorem srrNorm_move {a : ℚ} (ha : a ≠ 0) (r : Cell) (pi : List Cell) :
    srrNorm (r.map (a * ·)) (pi.map fun x => x.map (a * ·)) = srrNorm r pi := by
  unfold srrNorm
  rw [List.map_map]
  apply List.map_congr_left
  intro x _
  cases r with
  | none => cases x <;> simp [cellOp]
  | some r =>
    by_cases hr : r = 0
    · subst hr; cases x <;> simp [cellOp]
    · have h2 : a * r ≠ 0 := mul_ne_zero ha hr
      simp only [Option.map_some, Option.some.injEq, hr, h2, if_false, Function.comp_apply]
      cases x with
      | none => simp [cellOp]
      | some x => simp only [Option.map_some, cellOp]; rw [mul_div_mul_left _ _ ha]

theorem rainy_move {c : ℚ} (hc : 0 < c) (a b : ℚ) (s : Int) (thr : ℚ) (d : SrrDay) :
    rainy (c * thr) (moveDay a b c s d) = rainy thr d := by
  unfold rainy moveDay
  cases d.precip with
  | none => simp [cellCmp]
  | some p => simp [cellCmp, mul_lt_mul_iff_right₀ hc]

theorem srrRows_move (a b c : ℚ) (s : Int) (df : List SrrDay) (x δ : List Cell) (ev : List Bool) :
    srrRows (df.map (moveDay a b c s)) x δ ev = (srrRows df x δ ev).map (moveRow a b s) := by
  unfold srrRows
  simp only [List.length_map, List.map_map]
  apply List.map_congr_left
  intro i hi
  rw [List.mem_range] at hi
  have e1 : df.getD i ⟨0, none, none, none⟩ = df[i] := by simp [List.getD_eq_getElem?_getD, hi]
  have e2 : (df.map (moveDay a b c s)).getD i ⟨0, none, none, none⟩ = moveDay a b c s df[i] := by
    simp [List.getD_eq_getElem?_getD, hi]
  simp only [Function.comp_apply, e1, e2, moveDay, moveRow]
  congr 1
  · cases df[i].pi <;> simp
  · cases df[i].insol <;> simp

theorem calcDailyDf_move {a b c : ℚ} (ha : a ≠ 0) (hc : 0 < c) (s : Int) (o : DailyOpts)
    (hrec : o.recenter = true ∨ a = 1) (pm insol : Series) (precip : Option Series) :
    calcDailyDf { o with precipThreshold := c * o.precipThreshold } (moveS a s pm) (moveS b s insol)
        (precip.map (moveS c s)) =
      (calcDailyDf o pm insol precip).map fun r => (r.1.map (a * ·), r.2.map (moveRow a b s)) := by
  unfold calcDailyDf
  simp only
  rw [srrJoin_move, trimMissing_move]
  generalize trimMissing (srrJoin pm insol precip) = df
  have hpi : (df.map (moveDay a b c s)).map SrrDay.pi =
      (df.map SrrDay.pi).map fun x => x.map (a * ·) := by
    rw [List.map_map, List.map_map]; rfl
  have hrain : (df.map (moveDay a b c s)).map (rainy (c * o.precipThreshold)) =
      df.map (rainy o.precipThreshold) := by
    rw [List.map_map]
    apply List.map_congr_left
    intro d _
    exact rainy_move hc a b s _ d
  rw [hpi, hrain, srrRenorm_move ha hrec, srrNorm_move ha]
  by_cases h1 : df = []
  · subst h1; rfl
  · rw [if_neg (by simpa using h1), if_neg h1]
    by_cases h2 : o.dayScale = 0
    · rw [if_pos h2, if_pos h2]; rfl
    · rw [if_neg h2, if_neg h2]
      have hdet : ∀ δ, srrDetected (DailyOpts.mk o.dayScale o.cleanThreshold o.recenter o.criterion
          (c * o.precipThreshold) o.outlierFactor) δ = srrDetected o δ := fun δ => rfl
      rw [hdet]
      generalize srrCriterion _ _ _ = e
      cases e with
      | error e => rfl
      | ok ev => simp only [Except.map, srrRows_move]

/-! ### Intervals -/

theorem fitRows_move (a b : ℚ) (s : Int) (g : List SrrRow) :
    fitRows (g.map (moveRow a b s)) = (fitRows g).map (moveRow a b s) := by
  unfold fitRows
  simp only
  rw [List.filter_map]
  have h : ((fun r : SrrRow => decide (0 < r.piNorm)) ∘ moveRow a b s) = fun r => decide (0 < r.piNorm) := rfl
  rw [h]
  by_cases hf : (g.filter fun r => decide (0 < r.piNorm)) = []
  · rw [if_pos hf, if_pos (by rw [hf]; rfl)]
  · rw [if_neg hf, if_neg (by simpa using hf)]

theorem mkInterval_move (a b : ℚ) (s : Int) (zs : List (ℚ × ℚ) → ℚ) (minLen : Nat) (x z : SrrRow)
    (g : List SrrRow) :
    mkInterval zs minLen (moveRow a b s x) (moveRow a b s z) (g.map (moveRow a b s)) =
      moveInt s (mkInterval zs minLen x z g) := by
  unfold mkInterval fitPoints
  simp only [fitRows_move, List.map_map, List.length_map]
  have h1 : (SrrRow.piNorm ∘ moveRow a b s) = SrrRow.piNorm := rfl
  have h2 : (SrrRow.delta ∘ moveRow a b s) = SrrRow.delta := rfl
  have h3 : ((fun r : SrrRow => ((r.day : ℚ), r.piNorm)) ∘ moveRow a b s) = fun r => ((r.day : ℚ), r.piNorm) := rfl
  rw [h1, h2, h3]
  split_ifs <;> rfl

theorem intervalOf_move (a b : ℚ) (s : Int) (zs : List (ℚ × ℚ) → ℚ) (minLen : Nat) (rows : List SrrRow)
    (r : Nat) :
    intervalOf zs minLen (rows.map (moveRow a b s)) r = (intervalOf zs minLen rows r).map (moveInt s) := by
  unfold intervalOf
  simp only
  have h : ((rows.map (moveRow a b s)).filter fun d => decide (d.run = r)) =
      (rows.filter fun d => decide (d.run = r)).map (moveRow a b s) := by
    rw [List.filter_map]; rfl
  rw [h]
  cases rows.filter fun d => decide (d.run = r) with
  | nil => rfl
  | cons x l =>
    simp only [List.map_cons, Option.map_some]
    rw [← mkInterval_move a b]
    congr 2
    simp only [← List.map_cons]
    rw [List.getLast_map]

theorem runList_move (a b : ℚ) (s : Int) (trim : Bool) (rows : List SrrRow) :
    runList trim (rows.map (moveRow a b s)) = runList trim rows := by
  unfold runList
  rw [List.map_map]
  rfl

theorem exclude_move (s : Int) (o : ResultOpts) (i : Interval) :
    exclude o (moveInt s i) = moveInt s (exclude o i) := by
  unfold exclude
  have : excluded o (moveInt s i) = excluded o i := rfl
  rw [this]
  split_ifs <;> rfl

theorem nextValidStart_move (s : Int) (l : List Interval) :
    nextValidStart (l.map (moveInt s)) = nextValidStart l := by
  unfold nextValidStart
  rw [List.filter_map]
  have : (Interval.valid ∘ moveInt s) = Interval.valid := rfl
  rw [this, List.head?_map, Option.map_map]
  rfl

theorem withRecovery_move (s : Int) (l : List Interval) :
    withRecovery (l.map (moveInt s)) = (withRecovery l).map (moveInt s) := by
  induction l with
  | nil => rfl
  | cons i l ih =>
    simp only [List.map_cons, withRecovery, nextValidStart_move, ih]
    rfl

theorem intervalTable_move (a b : ℚ) (s : Int) (zs : List (ℚ × ℚ) → ℚ) (o : ResultOpts)
    (rows : List SrrRow) :
    intervalTable zs o (rows.map (moveRow a b s)) = (intervalTable zs o rows).map (moveInt s) := by
  unfold intervalTable
  rw [runList_move, ← withRecovery_move, List.map_map]
  congr 1
  have h : (intervalOf zs o.minIntervalLength (rows.map (moveRow a b s))) =
      fun r => (intervalOf zs o.minIntervalLength rows r).map (moveInt s) := by
    funext r; exact intervalOf_move a b s zs _ rows r
  rw [h]
  have h2 : (moveInt s ∘ exclude o) = (exclude o ∘ moveInt s) := by
    funext i; exact (exclude_move s o i).symm
  rw [h2, ← List.map_map, ← List.map_filterMap]

theorem intervalOfDay_move (a b : ℚ) (s : Int) (tab : List Interval) (d : SrrRow) :
    intervalOfDay (tab.map (moveInt s)) (moveRow a b s d) = (intervalOfDay tab d).map (moveInt s) := by
  unfold intervalOfDay
  rw [List.find?_map]
  rfl

theorem analyzedDays_move (a b : ℚ) (s : Int) (tab : List Interval) (rows : List SrrRow) :
    analyzedDays (tab.map (moveInt s)) (rows.map (moveRow a b s)) =
      (analyzedDays tab rows).map (movePair a b s) := by
  unfold analyzedDays
  cases tab with
  | nil => rfl
  | cons i l =>
    simp only [List.map_cons]
    have h : ((rows.map (moveRow a b s)).filter fun d => decide ((moveInt s i).start ≤ d.t ∧
        d.t ≤ ((moveInt s i :: l.map (moveInt s)).getLast (by simp)).stop)) =
        (rows.filter fun d => decide (i.start ≤ d.t ∧ d.t ≤ ((i :: l).getLast (by simp)).stop)).map
          (moveRow a b s) := by
      rw [List.filter_map]
      congr 1
      apply List.filter_congr
      intro d _
      have : ((moveInt s i :: l.map (moveInt s)).getLast (by simp)) = moveInt s ((i :: l).getLast (by simp)) := by
        simp only [← List.map_cons]
        rw [List.getLast_map]
      rw [this]
      simp only [Function.comp_apply, moveInt, moveRow]
      apply decide_eq_decide.mpr
      constructor <;> (rintro ⟨h1, h2⟩; constructor <;> omega)
    rw [h, List.map_map, List.map_map]
    apply List.map_congr_left
    intro d _
    simp only [Function.comp_apply, movePair]
    rw [← List.map_cons, intervalOfDay_move]

theorem calcResultDf_move (a b : ℚ) (s : Int) (zs : List (ℚ × ℚ) → ℚ) (o : ResultOpts)
    (rows : List SrrRow) :
    calcResultDf zs o (rows.map (moveRow a b s)) =
      (calcResultDf zs o rows).map fun r => (r.1.map (moveInt s), r.2.map (movePair a b s)) := by
  unfold calcResultDf
  simp only [intervalTable_move]
  have h : ((intervalTable zs o rows).map (moveInt s)).filter Interval.valid =
      ((intervalTable zs o rows).filter Interval.valid).map (moveInt s) := by
    rw [List.filter_map]; rfl
  rw [h, analyzedDays_move]
  generalize intervalTable zs o rows = tab
  by_cases h1 : tab = []
  · subst h1; rfl
  · rw [if_neg (by simpa using h1), if_neg h1]
    by_cases h2 : tab.filter Interval.valid = []
    · rw [if_pos h2, if_pos (by rw [h2]; rfl)]; rfl
    · rw [if_neg (by simpa using h2), if_neg h2]; rfl

/-! ### Monte Carlo -/

theorem drawSlopes_move (s : Int) (u : Nat → ℚ) (tab : List Interval) :
    drawSlopes u (tab.map (moveInt s)) = drawSlopes u tab := by
  unfold drawSlopes
  rw [List.zipIdx_map, List.map_map]
  rfl

theorem simulate_move (sh : Int) (m : SrrMethod) (v : Nat → ℚ) (s : ℚ) (k : Nat)
    (l : List (Interval × ℚ)) :
    simulate m v s k (l.map fun x => (moveInt sh x.1, x.2)) = simulate m v s k l := by
  induction l generalizing s k with
  | nil => rfl
  | cons x l ih =>
    obtain ⟨i, sl⟩ := x
    simp only [List.map_cons, simulate]
    have h1 : (moveInt sh i).valid = i.valid := rfl
    have h2 : (moveInt sh i).length = i.length := rfl
    have h3 : ∀ v e, nextStart m v e (moveInt sh i) = nextStart m v e i := by
      intro v e; cases m <;> rfl
    rw [h1, h2, h3, ih, ih]

theorem groupsFrom_move (s : Int) (g : Nat) (tab : List Interval) :
    groupsFrom g (tab.map (moveInt s)) = groupsFrom g tab := by
  induction tab generalizing g with
  | nil => rfl
  | cons i l ih =>
    simp only [List.map_cons, groupsFrom]
    have h1 : (moveInt s i).valid = i.valid := rfl
    rw [h1, ih]

theorem invalidRows_move (s : Int) (tab : List Interval) (se : List (Cell × Cell)) :
    invalidRows (tab.map (moveInt s)) se = invalidRows tab se := by
  unfold invalidRows
  rw [groupsFrom_move, List.zip_map_left, List.zip_map_left, List.filter_map, List.map_map]
  rfl

theorem startLosses_move (s : Int) (ord : List Nat → List Nat) (m : SrrMethod) (dr : SrrDraw)
    (tab : List Interval) :
    startLosses ord m dr (tab.map (moveInt s)) = startLosses ord m dr tab := by
  have h : (tab.map (moveInt s)).zip (drawSlopes dr.slope (tab.map (moveInt s))) =
      (tab.zip (drawSlopes dr.slope tab)).map fun x => (moveInt s x.1, x.2) := by
    rw [drawSlopes_move, List.zip_map_left]
    rfl
  cases m with
  | other => rfl
  | perfectClean => simp [startLosses, List.map_map, Function.comp_def]
  | halfNorm => simp only [startLosses, h, simulate_move, invalidRows_move]
  | randomClean => simp only [startLosses, h, simulate_move, invalidRows_move]

theorem daysSince_move (a b : ℚ) (s : Int) (i : Interval) (d : SrrRow) :
    daysSince (moveInt s i) (moveRow a b s d) = daysSince i d := by
  unfold daysSince moveInt moveRow
  simp only
  congr 1; ring

theorem dayLoss_move (a b : ℚ) (s : Int) (tab : List Interval) (starts : List Cell) (slopes : List ℚ)
    (d : SrrRow) :
    dayLoss (tab.map (moveInt s)) starts slopes (moveRow a b s d) = dayLoss tab starts slopes d := by
  unfold dayLoss
  rw [List.zip_map_left, List.find?_map]
  have h : ((fun x : Interval × Cell × ℚ => decide (x.1.run = (moveRow a b s d).run)) ∘
      Prod.map (moveInt s) id) = fun x => decide (x.1.run = d.run) := rfl
  rw [h]
  cases (tab.zip (starts.zip slopes)).find? fun x => decide (x.1.run = d.run) with
  | none => rfl
  | some x =>
    obtain ⟨i, st, sl⟩ := x
    simp only [Option.map_some, Prod.map, id, daysSince_move]

theorem sum_map_mul_l {α : Type} (l : List α) (b : ℚ) (f : α → ℚ) :
    (l.map fun x => b * f x).sum = b * (l.map f).sum := by
  induction l with
  | nil => simp
  | cons a l ih => simp [ih, mul_add]

theorem weightedRatio_move {b : ℚ} (hb : b ≠ 0) (l : List (Cell × ℚ)) :
    weightedRatio (l.map fun x => (x.1, b * x.2)) = weightedRatio l := by
  unfold weightedRatio
  simp only
  have h : ((l.map fun x => (x.1, b * x.2)).filterMap fun x => x.1.map fun v => (v, x.2)) =
      (l.filterMap fun x => x.1.map fun v => (v, x.2)).map fun y => (y.1, b * y.2) := by
    rw [List.filterMap_map, List.map_filterMap]
    congr 1
    funext x
    simp only [Function.comp_apply, Option.map_map]
    rfl
  rw [h]
  generalize (l.filterMap fun x => x.1.map fun v => (v, x.2)) = p
  have h1 : ((p.map fun y => (y.1, b * y.2)).map Prod.snd).sum = b * (p.map Prod.snd).sum := by
    rw [List.map_map, ← sum_map_mul_l]; rfl
  have h2 : ((p.map fun y => (y.1, b * y.2)).map fun x => x.1 * x.2).sum = b * (p.map fun x => x.1 * x.2).sum := by
    rw [List.map_map, ← sum_map_mul_l]
    congr 1
    apply List.map_congr_left
    intro x _
    simp only [Function.comp_apply]; ring
  rw [h1, h2]
  by_cases h0 : (p.map Prod.snd).sum = 0
  · rw [if_pos h0, if_pos (by rw [h0, mul_zero])]
  · rw [if_neg h0, if_neg (mul_ne_zero hb h0), mul_div_mul_left _ _ hb]

/-- one realization with its dates moved -/
def moveReal (s : Int) (r : List (Int × Cell) × Cell) : List (Int × Cell) × Cell :=
  (r.1.map fun x => (x.1 + s, x.2), r.2)

theorem realization_move {a b : ℚ} (hb : b ≠ 0) (s : Int) (ord : List Nat → List Nat) (m : SrrMethod)
    (tab : List Interval) (days : List (SrrRow × Option Interval)) (dr : SrrDraw) :
    realization ord m (tab.map (moveInt s)) (days.map (movePair a b s)) dr =
      (realization ord m tab days dr).map (moveReal s) := by
  unfold realization
  rw [startLosses_move, drawSlopes_move]
  cases startLosses ord m dr tab with
  | error e => rfl
  | ok starts =>
    simp only [Except.map, moveReal, List.map_map, Function.comp_def, movePair, dayLoss_move]
    congr 2
    have := weightedRatio_move hb (days.map fun x =>
      (dayLoss tab starts (drawSlopes dr.slope tab) x.1, x.1.insol))
    rw [List.map_map] at this
    exact this

theorem calcMonte_move {a b : ℚ} (hb : b ≠ 0) (s : Int) (ord : List Nat → List Nat) (m : SrrMethod)
    (tab : List Interval) (days : List (SrrRow × Option Interval)) (draws : List SrrDraw) :
    calcMonte ord m (tab.map (moveInt s)) (days.map (movePair a b s)) draws =
      (calcMonte ord m tab days draws).map (List.map (moveReal s)) := by
  unfold calcMonte
  induction draws with
  | nil => rfl
  | cons d l ih =>
    rw [List.mapM_cons, List.mapM_cons, ih, realization_move hb]
    cases realization ord m tab days d with
    | error e => rfl
    | ok x =>
      cases List.mapM (realization ord m tab days) l with
      | error e => rfl
      | ok y => rfl

/-- the outcome with its dates moved by `s` and its renormalization factor times `a` -/
def moveOut (a : ℚ) (s : Int) (r : SrrOut) : SrrOut :=
  { r with
    renorm := r.renorm.map (a * ·)
    profiles := r.profiles.map fun p => p.map fun x => (x.1 + s, x.2)
    table := r.table.map (moveInt s)
    perfect := r.perfect.map fun x => (x.1 + s, x.2) }

theorem lossPerfectClean_move (a b : ℚ) (s : Int) (x : SrrRow × Option Interval) :
    lossPerfectClean (movePair a b s x) = lossPerfectClean x := by
  obtain ⟨d, i⟩ := x
  cases i with
  | none => rfl
  | some i =>
    unfold lossPerfectClean
    simp only [movePair, Option.map_some, daysSince_move]
    rfl

theorem srrSummary_move (a b : ℚ) (s : Int) (exceed conf : ℚ) (renorm : Cell) (tab : List Interval)
    (days : List (SrrRow × Option Interval)) (mc : List (List (Int × Cell) × Cell)) :
    srrSummary exceed conf (renorm.map (a * ·)) (tab.map (moveInt s)) (days.map (movePair a b s))
        (mc.map (moveReal s)) =
      (srrSummary exceed conf renorm tab days mc).map (moveOut a s) := by
  unfold srrSummary
  have h1 : ((mc.map (moveReal s)).all fun x => x.2.isSome) = mc.all fun x => x.2.isSome := by
    rw [List.all_map]; rfl
  have h2 : (mc.map (moveReal s)).map Prod.snd = mc.map Prod.snd := by rw [List.map_map]; rfl
  have h3 : (mc.map (moveReal s)).map Prod.fst = (mc.map Prod.fst).map fun p => p.map fun x => (x.1 + s, x.2) := by
    rw [List.map_map, List.map_map]; rfl
  have h4 : ((days.map (movePair a b s)).filter fun x => (x.2.map Interval.valid).getD false) =
      (days.filter fun x => (x.2.map Interval.valid).getD false).map (movePair a b s) := by
    rw [List.filter_map]
    congr 1
    apply List.filter_congr
    rintro ⟨d, i⟩ _
    cases i <;> rfl
  simp only [h1, h2, h3, h4]
  generalize valids (mc.map Prod.snd) = losses
  by_cases g : (mc.all fun x => x.2.isSome) = false
  · rw [if_pos g, if_pos g]; rfl
  · rw [if_neg g, if_neg g]
    cases percentileE losses 50 with
    | error e => rfl
    | ok p50 =>
      cases percentileE losses (50 - conf / 2) with
      | error e => rfl
      | ok lo =>
        cases percentileE losses (50 + conf / 2) with
        | error e => rfl
        | ok hi =>
          cases percentileE losses (100 - exceed) with
          | error e => rfl
          | ok e =>
            simp only [Except.bind, Except.map, moveOut, List.map_map]
            congr 2
            apply List.map_congr_left
            intro x _
            simp only [Function.comp_apply, lossPerfectClean_move]
            rfl

theorem soilingSrr_move {a b c : ℚ} (ha : a ≠ 0) (hb : b ≠ 0) (hc : 0 < c) (s : Int)
    (ord : List Nat → List Nat) (zs : List (ℚ × ℚ) → ℚ) (o : DailyOpts) (ro : ResultOpts) (m : SrrMethod)
    (exceed conf : ℚ) (draws : List SrrDraw) (pm insol : Series) (precip : Option Series)
    (hrec : o.recenter = true ∨ a = 1) :
    soilingSrr ord zs { o with precipThreshold := c * o.precipThreshold } ro m exceed conf draws
        (moveS a s pm) (moveS b s insol) (precip.map (moveS c s)) =
      (soilingSrr ord zs o ro m exceed conf draws pm insol precip).map (moveOut a s) := by
  unfold soilingSrr
  rw [srrInit_move, calcDailyDf_move ha hc s o hrec]
  cases srrInit pm insol precip with
  | error e => rfl
  | ok u =>
    simp only [Except.bind]
    cases calcDailyDf o pm insol precip with
    | error e => rfl
    | ok d =>
      simp only [Except.map]
      rw [calcResultDf_move]
      cases calcResultDf zs ro d.2 with
      | error e => rfl
      | ok r =>
        simp only [Except.map]
        rw [calcMonte_move hb]
        cases calcMonte ord m r.1 r.2 draws with
        | error e => rfl
        | ok mc =>
          simp only [Except.map]
          rw [srrSummary_move]
          rfl

end Verif
