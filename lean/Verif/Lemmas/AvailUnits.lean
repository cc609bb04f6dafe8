import Verif.Model.Availability
import Verif.Lemmas.ClipScale

/-! The availability analysis commutes with a change of the unit of power and energy. -/

namespace Verif.Avail

open Verif Verif.Clip

/-- a cell times `c` -/
abbrev mc (c : ℚ) (x : Cell) : Cell := x.map (c * ·)

theorem cellDiv_both {c : ℚ} (hc : c ≠ 0) (a b : Cell) : cellDiv (mc c a) (mc c b) = cellDiv a b := by
  cases a with
  | none => rfl
  | some x =>
    cases b with
    | none => rfl
    | some y =>
      simp only [cellDiv, mc, Option.map_some, Option.bind_some]
      by_cases hy : y = 0
      · simp [hy]
      · rw [if_neg hy, if_neg (mul_ne_zero hc hy), mul_div_mul_left _ _ hc]

theorem cellDiv_num (c : ℚ) (a b : Cell) : cellDiv (mc c a) b = mc c (cellDiv a b) := by
  cases a with
  | none => rfl
  | some x =>
    cases b with
    | none => rfl
    | some y =>
      simp only [cellDiv, mc, Option.map_some, Option.bind_some]
      by_cases hy : y = 0
      · simp [hy]
      · rw [if_neg hy, if_neg hy, Option.map_some, mul_div_assoc]

theorem cellOp_lin (c : ℚ) (f : ℚ → ℚ → ℚ) (hf : ∀ a b, f (c * a) (c * b) = c * f a b) (a b : Cell) :
    cellOp f (mc c a) (mc c b) = mc c (cellOp f a b) := by
  cases a <;> cases b <;> simp [cellOp, hf]

theorem cellOp_add (c : ℚ) (a b : Cell) :
    cellOp (· + ·) (mc c a) (mc c b) = mc c (cellOp (· + ·) a b) := cellOp_lin c _ (fun a b => by ring) a b

theorem cellOp_sub (c : ℚ) (a b : Cell) :
    cellOp (fun a b => a - b) (mc c a) (mc c b) = mc c (cellOp (fun a b => a - b) a b) :=
  cellOp_lin c _ (fun a b => by ring) a b

theorem cellOp_mul_right (c : ℚ) (a b : Cell) :
    cellOp (· * ·) a (mc c b) = mc c (cellOp (· * ·) a b) := by
  cases a <;> cases b <;> simp [cellOp]
  ring

theorem cellCmp_inv (c d : ℚ) (r : ℚ → ℚ → Bool) (hr : ∀ a b, r (c * a) (d * b) = r a b) (a b : Cell) :
    cellCmp r (mc c a) (mc d b) = cellCmp r a b := by
  cases a <;> cases b <;> simp [cellCmp, hr]

theorem lt_mul_iff' {c : ℚ} (hc : 0 < c) (a b : ℚ) : decide (c * a < c * b) = decide (a < b) := by
  rw [decide_eq_decide]; exact mul_lt_mul_iff_right₀ hc

theorem le_mul_iff' {c : ℚ} (hc : 0 < c) (a b : ℚ) : decide (c * a ≤ c * b) = decide (a ≤ b) := by
  rw [decide_eq_decide]; exact mul_le_mul_iff_right₀ hc

theorem cmp_lt {c : ℚ} (hc : 0 < c) (a b : Cell) :
    cellCmp (fun a b => decide (a < b)) (mc c a) (mc c b) = cellCmp (fun a b => decide (a < b)) a b :=
  cellCmp_inv c c _ (lt_mul_iff' hc) a b

theorem cmp_gt {c : ℚ} (hc : 0 < c) (a b : Cell) :
    cellCmp (fun a b => decide (b < a)) (mc c a) (mc c b) = cellCmp (fun a b => decide (b < a)) a b :=
  cellCmp_inv c c _ (fun a b => lt_mul_iff' hc b a) a b

theorem cmp_ge {c : ℚ} (hc : 0 < c) (a b : Cell) :
    cellCmp (fun a b => decide (b ≤ a)) (mc c a) (mc c b) = cellCmp (fun a b => decide (b ≤ a)) a b :=
  cellCmp_inv c c _ (fun a b => le_mul_iff' hc b a) a b

theorem cmp_pos {c : ℚ} (hc : 0 < c) (b : Cell) :
    cellCmp (fun a b => decide (a < b)) (some 0) (mc c b) = cellCmp (fun a b => decide (a < b)) (some 0) b := by
  have := cmp_lt hc (some 0) b
  simpa [mc] using this

theorem mc_none (c : ℚ) : mc c none = none := rfl
theorem mc_some (c x : ℚ) : mc c (some x) = some (c * x) := rfl

theorem getD_scaleC (c : ℚ) (l : List Cell) (k : Nat) : (scaleC c l).getD k none = mc c (l.getD k none) := by
  rw [List.getD_eq_getElem?_getD, List.getElem?_map, List.getD_eq_getElem?_getD]
  cases l[k]? <;> rfl

theorem getD_mulQ (c : ℚ) (l : List ℚ) (k : Nat) : (l.map (c * ·)).getD k 0 = c * l.getD k 0 := by
  rw [List.getD_eq_getElem?_getD, List.getElem?_map, List.getD_eq_getElem?_getD]
  cases l[k]? <;> simp

theorem sumQ_scale (c : ℚ) (l : List ℚ) : (l.map (c * ·)).sum = c * l.sum := by
  have := sum_scale c (fun x : ℚ => x) l
  simpa using this

/-! ## the rows -/

theorem fillRow_scale (c : ℚ) (row : List Cell) : fillRow (scaleC c row) = (fillRow row).map (c * ·) := by
  unfold fillRow
  rw [List.map_map, List.map_map]
  apply List.map_congr_left
  intro x _
  cases x <;> simp

theorem defaultThresholds_scale {c : ℚ} (hc : 0 < c) (n : Nat) (rows : List (List Cell)) :
    defaultThresholds n (rows.map (scaleC c)) = scaleC c (defaultThresholds n rows) := by
  unfold defaultThresholds scaleC
  rw [List.map_map]
  apply List.map_congr_left
  intro j _
  simp only [Function.comp_apply, List.map_map]
  have : rows.map ((fun r => (fillRow r).getD j 0) ∘ scaleC c) =
      (rows.map fun r => (fillRow r).getD j 0).map (fun x => c * x) := by
    rw [List.map_map]
    apply List.map_congr_left
    intro r _
    simp only [Function.comp_apply]
    rw [fillRow_scale, getD_mulQ]
  rw [this, quantile_smul hc (by norm_num) (by norm_num)]
  cases quantile (rows.map fun r => (fillRow r).getD j 0) (99 / 100) with
  | none => rfl
  | some q => simp [mul_div_assoc]

theorem onlineRow_scale {c : ℚ} (hc : 0 < c) (th : List Cell) (p : List ℚ) :
    onlineRow (scaleC c th) (p.map (c * ·)) = onlineRow th p := by
  unfold onlineRow
  rw [List.zipWith_map]
  congr 1
  funext t x
  exact cmp_lt hc t (some x)

theorem reportingRow_scale {c : ℚ} (hc : 0 < c) (th : List Cell) (p : List ℚ) :
    reportingRow (scaleC c th) (p.map (c * ·)) = scaleC c (reportingRow th p) := by
  unfold reportingRow
  show _ = List.map _ _
  rw [onlineRow_scale hc, List.zipWith_map_right, List.map_zipWith]
  congr 1
  funext b x
  cases b <;> rfl

theorem mean_valids_scale (c : ℚ) (l : List Cell) : mean (valids (scaleC c l)) = mc c (mean (valids l)) := by
  rw [valids_scale, mean_scale]

theorem normalizedRow_scale {c : ℚ} (hc : 0 < c) (rep : List Cell) :
    normalizedRow (scaleC c rep) = normalizedRow rep := by
  unfold normalizedRow
  rw [mean_valids_scale, List.map_map]
  apply List.map_congr_left
  intro x _
  exact cellDiv_both hc.ne' x _

theorem estimateSizes_scale {c : ℚ} (hc : 0 < c) (n : Nat) (th : List Cell) (rows : List (List Cell)) :
    estimateSizes n (scaleC c th) (rows.map (scaleC c)) = estimateSizes n th rows := by
  unfold estimateSizes
  apply List.map_congr_left
  intro j _
  rw [List.map_map]
  congr 2
  apply List.map_congr_left
  intro r _
  simp only [Function.comp_apply]
  rw [fillRow_scale, reportingRow_scale hc, normalizedRow_scale hc]

theorem virtualFull_scale (c : ℚ) (sizes rep : List Cell) :
    virtualFull sizes (scaleC c rep) = mc c (virtualFull sizes rep) := by
  unfold virtualFull
  have : List.zipWith cellDiv (scaleC c rep) sizes = scaleC c (List.zipWith cellDiv rep sizes) := by
    rw [List.zipWith_map_left, scaleC, List.map_zipWith]
    congr 1
    funext x y
    exact cellDiv_num c x y
  rw [this, mean_valids_scale, List.length_map]
  cases mean (valids (List.zipWith cellDiv rep sizes)) with
  | none => rfl
  | some m => simp [mul_assoc]

theorem smallestDelta_scale {c : ℚ} (hc : 0 < c) (th sizes : List Cell) (p : List ℚ) :
    smallestDelta (scaleC c th) sizes (p.map (c * ·)) = smallestDelta th sizes p := by
  unfold smallestDelta
  rw [List.zipWith_map]
  congr 4
  funext t x
  exact cmp_ge hc t (some x)

theorem isDowntime_scale {c : ℚ} (hc : 0 < c) (th sizes : List Cell) (p : List ℚ) (ps : Cell) :
    isDowntime (scaleC c th) sizes (p.map (c * ·)) (mc c ps) = isDowntime th sizes p ps := by
  unfold isDowntime
  simp only
  rw [reportingRow_scale hc, virtualFull_scale, cellDiv_both hc.ne', smallestDelta_scale hc, onlineRow_scale hc]

theorem lowestPossible_scale {c : ℚ} (hc : 0 < c) (th sizes : List Cell) (p : List ℚ) :
    lowestPossible (scaleC c th) sizes (p.map (c * ·)) = lowestPossible th sizes p := by
  unfold lowestPossible
  rw [onlineRow_scale hc]

theorem rawLoss_scale {c : ℚ} (hc : 0 < c) (th sizes : List Cell) (p : List ℚ) (ps : Cell) :
    rawLoss (scaleC c th) sizes (p.map (c * ·)) (mc c ps) = mc c (rawLoss th sizes p ps) := by
  unfold rawLoss
  rw [isDowntime_scale hc]
  split_ifs
  · simp only
    rw [reportingRow_scale hc, virtualFull_scale, cellDiv_both hc.ne', lowestPossible_scale hc, cellOp_mul_right]
  · simp

theorem max_zero_mul {c : ℚ} (hc : 0 < c) (x : ℚ) : max 0 (c * x) = c * max 0 x := by
  rw [mul_max_of_nonneg _ _ hc.le, mul_zero]

theorem map_max_scale {c : ℚ} (hc : 0 < c) (x : Cell) : (mc c x).map (max 0) = mc c (x.map (max 0)) := by
  cases x with
  | none => rfl
  | some v => simp [max_zero_mul hc]

theorem lossRow_scale {c : ℚ} (hc : 0 < c) (th sizes : List Cell) (limit ps0 : Cell) (row : List Cell) :
    lossRow (scaleC c th) sizes (mc c limit) (mc c ps0) (scaleC c row) = c * lossRow th sizes limit ps0 row := by
  unfold lossRow
  simp only
  rw [fillRow_scale, map_max_scale hc, rawLoss_scale hc, cellOp_add, cmp_gt hc, cellOp_sub, map_max_scale hc]
  split_ifs
  · cases (cellOp (fun a b => a - b) limit (Option.map (max 0) ps0)).map (max 0) <;> simp
  · cases rawLoss th sizes (fillRow row) (Option.map (max 0) ps0) <;> simp

/-! ## the analysis -/

/-- system power, subsystem power and meter times `c`, expected power times `e` -/
def scaleInput (c e : ℚ) (i : Input) : Input :=
  { i with system := scaleC c i.system, subs := i.subs.map (scaleC c), cum := scaleC c i.cum
           expected := scaleC e i.expected }

/-- given thresholds and power limits times `c` -/
def scaleArgs (c : ℚ) (a : Args) : Args :=
  { a with thresholds := a.thresholds.map (scaleC c), limits := scaleC c a.limits }

theorem thresholdsOf_scale {c : ℚ} (hc : 0 < c) (e : ℚ) (a : Args) (i : Input) :
    thresholdsOf (scaleArgs c a) (scaleInput c e i) = scaleC c (thresholdsOf a i) := by
  unfold thresholdsOf
  simp only [scaleArgs, scaleInput]
  cases a.thresholds with
  | none => exact defaultThresholds_scale hc _ _
  | some th => rfl

theorem sizesOf_scale {c : ℚ} (hc : 0 < c) (e : ℚ) (a : Args) (i : Input) :
    sizesOf (scaleArgs c a) (scaleInput c e i) = sizesOf a i := by
  unfold sizesOf
  rw [thresholdsOf_scale hc]
  show a.sizes.getD (estimateSizes i.ncols _ (i.subs.map (scaleC c))) = _
  rw [estimateSizes_scale hc]

/-- the losses times `c` -/
def scaleSub (c : ℚ) (s : Subsystem) : Subsystem := ⟨s.mask, s.loss.map (c * ·)⟩

theorem getD_subs (c : ℚ) (l : List (List Cell)) (k : Nat) :
    (l.map (scaleC c)).getD k [] = scaleC c (l.getD k []) := by
  rw [List.getD_eq_getElem?_getD, List.getElem?_map, List.getD_eq_getElem?_getD]
  cases l[k]? <;> rfl

theorem lossSubsystem_scale {c : ℚ} (hc : 0 < c) (e : ℚ) (a : Args) (i : Input) :
    lossSubsystem (scaleArgs c a) (scaleInput c e i) = scaleSub c (lossSubsystem a i) := by
  unfold lossSubsystem scaleSub
  simp only
  rw [thresholdsOf_scale hc, sizesOf_scale hc]
  have e1 : (scaleInput c e i).subs = i.subs.map (scaleC c) := rfl
  have e2 : (scaleInput c e i).index = i.index := rfl
  have e3 : (scaleInput c e i).system = scaleC c i.system := rfl
  have e4 : (scaleArgs c a).limits = scaleC c a.limits := rfl
  rw [e1, e2, e3, e4]
  congr 1
  · rw [List.map_map]
    apply List.map_congr_left
    intro r _
    simp only [Function.comp_apply]
    rw [fillRow_scale, onlineRow_scale hc]
  · rw [List.map_map]
    apply List.map_congr_left
    intro k _
    simp only [Function.comp_apply]
    rw [getD_scaleC, getD_scaleC, getD_subs, lossRow_scale hc]

theorem zip_scaleC (c : ℚ) (idx : List Int) (v : List Cell) : idx.zip (scaleC c v) = scaleS c (idx.zip v) := by
  unfold scaleS scaleC
  rw [List.zip_map_right]
  rfl

theorem energyOn_scale (c c' e : ℚ) (i : Input) (v : List Cell) :
    energyOn (scaleInput c' e i) (scaleC c v) = (energyOn i v).map (scaleC c) := by
  unfold energyOn
  have e2 : (scaleInput c' e i).index = i.index := rfl
  have e3 : (scaleInput c' e i).freq = i.freq := rfl
  rw [e2, e3, zip_scaleC, energyFromPower_scale]
  cases energyFromPower (i.index.zip v) none none .rightLabeled i.freq with
  | error x => rfl
  | ok E =>
    simp only [Except.map]
    congr 1
    unfold scaleC
    rw [List.map_map]
    apply List.map_congr_left
    intro t _
    exact lookupK_scaleS c E t

theorem normalMask_scale {c e : ℚ} (hc : 0 < c) (he : 0 < e) (i : Input) (loss : List ℚ) :
    normalMask (scaleInput c e i) (loss.map (c * ·)) = normalMask i loss := by
  unfold normalMask
  have e1 : (scaleInput c e i).system = scaleC c i.system := rfl
  have e2 : (scaleInput c e i).expected = scaleC e i.expected := rfl
  rw [e1, e2, scaleC, scaleC, List.zip_map, List.zipWith_map]
  congr 1
  funext l x
  have h : decide (c * l = 0) = decide (l = 0) := by
    rw [decide_eq_decide]; simp [hc.ne']
  rw [h]
  congr 1
  · congr 1
    exact cmp_pos hc x.1
  · exact cmp_pos he x.2

theorem select_map {α β : Type} (f : α → β) (m : List Bool) (l : List α) :
    select m (l.map f) = (select m l).map f := by
  unfold select
  rw [List.zip_map_right, List.filterMap_map, List.map_filterMap]
  congr 1
  funext x
  simp only [Function.comp_apply, Prod.map]
  cases x.1 <;> rfl

theorem windows_map {α β : Type} (f : α → β) (w : Nat) (l : List α) :
    windows w (l.map f) = (windows w l).map (List.map f) := by
  unfold windows
  rw [List.length_map, List.map_map]
  apply List.map_congr_left
  intro k _
  simp [List.map_take, List.map_drop]

theorem strictSum_scale (c : ℚ) (l : List Cell) : strictSum (scaleC c l) = mc c (strictSum l) := by
  unfold strictSum
  induction l with
  | nil => simp
  | cons a l ih =>
    simp only [scaleC, List.map_cons, List.foldr_cons] at ih ⊢
    rw [ih]
    exact cellOp_add c a _

theorem windowErrors_scale {c : ℚ} (hc : 0 < c) (w : Nat) (rows : List (Cell × Cell)) :
    windowErrors w (rows.map fun x => (mc c x.1, mc c x.2)) = windowErrors w rows := by
  unfold windowErrors
  rw [windows_map, List.map_map]
  congr 1
  apply List.map_congr_left
  intro x _
  simp only [Function.comp_apply, List.map_map]
  have h1 : x.map (Prod.fst ∘ fun x : Cell × Cell => (mc c x.1, mc c x.2)) = scaleC c (x.map Prod.fst) := by
    simp [scaleC, Function.comp_def]
  have h2 : x.map (Prod.snd ∘ fun x : Cell × Cell => (mc c x.1, mc c x.2)) = scaleC c (x.map Prod.snd) := by
    simp [scaleC, Function.comp_def]
  rw [h1, h2, strictSum_scale, strictSum_scale, cellDiv_both hc.ne']

theorem errorTable_scale {c : ℚ} (hc : 0 < c) (rows : List (Cell × Cell)) (q : ℚ) (ws : List Nat) :
    errorTable (rows.map fun x => (mc c x.1, mc c x.2)) q ws = errorTable rows q ws := by
  unfold errorTable
  simp only [windowErrors_scale hc]

/-- rescaled expectations times `c` -/
def scaleDist (c : ℚ) (d : ErrorDist) : ErrorDist := ⟨scaleC c d.powerR, scaleC c d.energyR, d.lower, d.upper⟩

theorem rescale_scale {c e : ℚ} (hc : c ≠ 0) (he : e ≠ 0) (x : Cell) (E S : ℚ) :
    cellDiv (mc e x) (cellDiv (some (e * E)) (some (c * S))) = mc c (cellDiv x (cellDiv (some E) (some S))) := by
  cases x with
  | none => rfl
  | some v =>
    simp only [cellDiv, mc, Option.map_some, Option.bind_some]
    by_cases hS : S = 0
    · simp [hS]
    · rw [if_neg hS, if_neg (mul_ne_zero hc hS)]
      simp only [Option.bind_some]
      by_cases hE : E = 0
      · simp [hE]
      · rw [if_neg (div_ne_zero (mul_ne_zero he hE) (mul_ne_zero hc hS)), if_neg (div_ne_zero hE hS)]
        simp only [Option.map_some, Option.some.injEq]
        field_simp

theorem errorDistributions_scale {c e : ℚ} (hc : 0 < c) (he : 0 < e) (a : Args) (i : Input) (loss : List ℚ) :
    errorDistributions (scaleArgs c a) (scaleInput c e i) (loss.map (c * ·)) =
      (errorDistributions a i loss).map (scaleDist c) := by
  unfold errorDistributions
  simp only
  rw [normalMask_scale hc he]
  have e1 : (scaleInput c e i).system = scaleC c i.system := rfl
  have e2 : (scaleInput c e i).expected = scaleC e i.expected := rfl
  have e3 : (scaleArgs c a).qLow = a.qLow := rfl
  have e4 : (scaleArgs c a).qHigh = a.qHigh := rfl
  rw [e1, e2, e3, e4]
  generalize hm : normalMask i loss = m
  have hp : (scaleC e i.expected).map (fun x => cellDiv x (cellDiv
      (some (valids (select m (scaleC e i.expected))).sum) (some (valids (select m (scaleC c i.system))).sum))) =
      scaleC c (i.expected.map fun x => cellDiv x (cellDiv (some (valids (select m i.expected)).sum)
        (some (valids (select m i.system)).sum))) := by
    unfold scaleC
    rw [select_map, select_map, valids_scale, valids_scale, sumQ_scale, sumQ_scale, List.map_map, List.map_map]
    apply List.map_congr_left
    intro x _
    exact rescale_scale hc.ne' he.ne' x _ _
  rw [hp]
  generalize (i.expected.map fun x => cellDiv x (cellDiv (some (valids (select m i.expected)).sum)
        (some (valids (select m i.system)).sum))) = P
  rw [energyOn_scale, energyOn_scale]
  cases energyOn i P with
  | error x => rfl
  | ok ER =>
    cases energyOn i i.system with
    | error x => rfl
    | ok M =>
      simp only [Except.map, Except.bind]
      have hz : (scaleC c M).zip (scaleC c ER) = (M.zip ER).map fun x => (mc c x.1, mc c x.2) := by
        unfold scaleC
        rw [List.zip_map]
        rfl
      rw [hz, select_map, List.length_map]
      split_ifs
      · rfl
      · rfl
      · rw [errorTable_scale hc, errorTable_scale hc]
        cases errorTable (select m (M.zip ER)) a.qLow (windowLengths (select m (M.zip ER)).length) with
        | error x => rfl
        | ok lo =>
          cases errorTable (select m (M.zip ER)) a.qHigh (windowLengths (select m (M.zip ER)).length) with
          | error x => rfl
          | ok up => rfl

theorem maskedOffline_scale {e : ℚ} (he : 0 < e) (c : ℚ) (i : Input) (mask : List (List Bool)) :
    maskedOffline (scaleInput c e i) mask = maskedOffline i mask := by
  unfold maskedOffline
  have e2 : (scaleInput c e i).expected = scaleC e i.expected := rfl
  rw [e2, scaleC, List.zipWith_map_right]
  congr 1
  funext m x
  have := cmp_pos he x
  simp only [mc] at this
  rw [this]

/-- the energies of a record times `c` -/
def scaleOutage (c : ℚ) (o : Outage) : Outage :=
  { o with expected := c * o.expected, energyStart := mc c o.energyStart, energyEnd := mc c o.energyEnd
           actual := mc c o.actual, ciLower := c * o.ciLower, ciUpper := c * o.ciUpper, loss := mc c o.loss }

theorem slice_map {α β : Type} (f : α → β) (l : List α) (s e : Nat) :
    slice (l.map f) s e = (slice l s e).map f := by
  unfold slice
  simp [List.map_take, List.map_drop]

theorem classify_scale {c : ℚ} (hc : 0 < c) (expected lo : ℚ) (es ee : Cell) :
    classify (c * expected) lo (mc c es) (mc c ee) =
      (mc c (classify expected lo es ee).1, (classify expected lo es ee).2.1,
        mc c (classify expected lo es ee).2.2) := by
  unfold classify
  simp only
  rw [cellOp_sub]
  have h : some (-(5 / 100) * (c * expected)) = mc c (some (-(5 / 100) * expected)) := by
    rw [mc_some]; congr 1; ring
  rw [h, cmp_lt hc]
  generalize cellOp (fun a b => a - b) ee es = d
  split_ifs
  · rfl
  · cases d with
    | none => rfl
    | some x =>
      simp only [mc, Option.map_some]
      have h2 : c * x < (1 + lo) * (c * expected) ↔ x < (1 + lo) * expected := by
        rw [show (1 + lo) * (c * expected) = c * ((1 + lo) * expected) by ring]
        exact mul_lt_mul_iff_right₀ hc
      by_cases hx : x < (1 + lo) * expected
      · rw [if_pos hx, if_pos (h2.mpr hx)]
        simp [mul_sub]
      · rw [if_neg hx, if_neg (fun h => hx (h2.mp h))]
        simp

theorem outageRecord_scale {c : ℚ} (hc : 0 < c) (e : ℚ) (i : Input) (d : ErrorDist) (s t : Nat) :
    outageRecord (scaleInput c e i) (scaleDist c d) s t = (outageRecord i d s t).map (scaleOutage c) := by
  unfold outageRecord
  have e1 : (scaleInput c e i).cum = scaleC c i.cum := rfl
  have e2 : (scaleDist c d).powerR = scaleC c d.powerR := rfl
  have e3 : (scaleDist c d).energyR = scaleC c d.energyR := rfl
  have e4 : (scaleDist c d).lower = d.lower := rfl
  have e5 : (scaleDist c d).upper = d.upper := rfl
  simp only [e1, e2, e3, e4, e5]
  have hd : ((slice (scaleC c d.powerR) s t).filter fun x =>
      cellCmp (fun a b => decide (a < b)) (some 0) x).length =
      ((slice d.powerR s t).filter fun x => cellCmp (fun a b => decide (a < b)) (some 0) x).length := by
    rw [scaleC, slice_map, List.filter_map, List.length_map]
    congr 2
    funext x
    exact cmp_pos hc x
  rw [hd]
  generalize ((slice d.powerR s t).filter fun x => cellCmp (fun a b => decide (a < b)) (some 0) x).length = n
  cases interpE d.lower n with
  | error x => rfl
  | ok lo =>
    cases interpE d.upper n with
    | error x => rfl
    | ok up =>
      simp only [Except.map, Except.bind]
      have he : (valids (slice (scaleC c d.energyR) s t)).sum = c * (valids (slice d.energyR s t)).sum := by
        rw [scaleC, slice_map, valids_scale, sumQ_scale]
      rw [he, List.length_map, getD_scaleC, getD_scaleC, classify_scale hc]
      unfold scaleOutage
      simp only [Except.ok.injEq, Outage.mk.injEq, true_and, and_true]
      refine ⟨by ring, by ring⟩

theorem mapM_scale {α β γ : Type} (f : α → Except PyErr β) (g : α → Except PyErr γ) (h : β → γ)
    (hg : ∀ x, g x = (f x).map h) (l : List α) : l.mapM g = (l.mapM f).map (List.map h) := by
  induction l with
  | nil => rfl
  | cons a l ih =>
    rw [List.mapM_cons, List.mapM_cons, ih, hg]
    cases f a with
    | error x => rfl
    | ok b =>
      cases l.mapM f with
      | error x => rfl
      | ok bs => rfl

theorem outageInfo_scale {c e : ℚ} (hc : 0 < c) (he : 0 < e) (i : Input) (mask : List (List Bool))
    (d : ErrorDist) :
    outageInfo (scaleInput c e i) mask (scaleDist c d) = (outageInfo i mask d).map (List.map (scaleOutage c)) := by
  unfold outageInfo
  rw [maskedOffline_scale he]
  exact mapM_scale _ _ _ (fun x : Nat × Nat => outageRecord_scale hc e i d x.1 x.2) _

/-- losses and meter times `c` -/
def scaleSys (c : ℚ) (s : SystemLoss) : SystemLoss := ⟨scaleC c s.loss, scaleC c s.corrected⟩

theorem cumsumK_scale (c a : ℚ) (l : List (Int × Cell)) :
    cumsumK (c * a) (scaleS c l) = scaleS c (cumsumK a l) := by
  induction l generalizing a with
  | nil => rfl
  | cons r l ih =>
    obtain ⟨t, x⟩ := r
    cases x with
    | none =>
      simp only [scaleS, List.map_cons, Option.map_none, cumsumK] at ih ⊢
      rw [ih]
    | some v =>
      simp only [scaleS, List.map_cons, Option.map_some, cumsumK] at ih ⊢
      rw [← mul_add, ih]

theorem share_scale {c e : ℚ} (he : e ≠ 0) (x l : Cell) (T : ℚ) :
    cellDiv (cellOp (· * ·) (mc e x) (mc c l)) (some (e * T)) = mc c (cellDiv (cellOp (· * ·) x l) (some T)) := by
  cases x with
  | none => rfl
  | some v =>
    cases l with
    | none => rfl
    | some w =>
      simp only [cellOp, cellDiv, mc, Option.map_some, Option.bind_some]
      by_cases hT : T = 0
      · simp [hT]
      · rw [if_neg hT, if_neg (mul_ne_zero he hT), Option.map_some, Option.some.injEq]
        field_simp

theorem ramp_scale {c e : ℚ} (he : e ≠ 0) (k a : Cell) (T : ℚ) :
    cellOp (· * ·) (mc e k) (cellDiv (mc c a) (some (e * T))) = mc c (cellOp (· * ·) k (cellDiv a (some T))) := by
  cases k with
  | none => cases cellDiv (mc c a) (some (e * T)) <;> rfl
  | some v =>
    cases a with
    | none => rfl
    | some w =>
      simp only [cellDiv, mc, Option.map_some, Option.bind_some]
      by_cases hT : T = 0
      · simp [hT, cellOp]
      · rw [if_neg hT, if_neg (mul_ne_zero he hT)]
        simp only [cellOp, Option.map_some, Option.some.injEq]
        field_simp

theorem zipIdx_scaleC (c : ℚ) (l : List Cell) :
    (scaleC c l).zipIdx = l.zipIdx.map fun x => (mc c x.1, x.2) := by
  unfold scaleC
  rw [List.zipIdx_map]
  rfl

theorem fillOutage_scale {e : ℚ} (c : ℚ) (he : 0 < e) (i : Input) (acc : SystemLoss) (o : Outage) :
    fillOutage (scaleInput c e i) (scaleSys c acc) (scaleOutage c o) = (fillOutage i acc o).map (scaleSys c) := by
  unfold fillOutage
  have e1 : (scaleInput c e i).index = i.index := rfl
  have e2 : (scaleInput c e i).freq = i.freq := rfl
  have e3 : (scaleInput c e i).expected = scaleC e i.expected := rfl
  have f1 : (scaleOutage c o).first = o.first := rfl
  have f2 : (scaleOutage c o).last = o.last := rfl
  have f3 : (scaleOutage c o).loss = mc c o.loss := rfl
  have f4 : (scaleOutage c o).energyStart = mc c o.energyStart := rfl
  have f5 : (scaleOutage c o).actual = mc c o.actual := rfl
  have g1 : (scaleSys c acc).loss = scaleC c acc.loss := rfl
  have g2 : (scaleSys c acc).corrected = scaleC c acc.corrected := rfl
  simp only [e1, e2, e3, f1, f2, f3, f4, f5, g1, g2]
  rw [zip_scaleC]
  have hs : slice (scaleS e (i.index.zip i.expected)) o.first o.last =
      scaleS e (slice (i.index.zip i.expected) o.first o.last) := slice_map _ _ _ _
  rw [hs, energyFromPower_scale]
  cases energyFromPower (slice (i.index.zip i.expected) o.first o.last) none none .rightLabeled i.freq with
  | error x => rfl
  | ok se =>
    simp only [Except.map]
    have ht : (valids ((scaleS e se).map Prod.snd)).sum = e * (valids (se.map Prod.snd)).sum := by
      have : (scaleS e se).map Prod.snd = (se.map Prod.snd).map fun x => x.map (e * ·) := by
        simp [scaleS, Function.comp_def]
      rw [this, valids_scale, sumQ_scale]
    have hcum : cumsumK 0 (scaleS e se) = scaleS e (cumsumK 0 se) := by
      have := cumsumK_scale e 0 se
      rwa [mul_zero] at this
    rw [ht, hcum, zipIdx_scaleC, zipIdx_scaleC, List.map_map, List.map_map]
    unfold scaleSys scaleC
    simp only [List.map_map, Except.ok.injEq, SystemLoss.mk.injEq]
    constructor
    · apply List.map_congr_left
      intro x _
      simp only [Function.comp_apply]
      split_ifs
      · rw [getD_scaleC, share_scale he.ne', cellOp_add]
      · rfl
    · apply List.map_congr_left
      intro x _
      simp only [Function.comp_apply]
      split_ifs
      · rw [lookupK_scaleS]
        have := ramp_scale (c := c) he.ne' (lookupK (cumsumK 0 se) (i.index.getD x.2 0)) o.actual
          (valids (se.map Prod.snd)).sum
        simp only [mc] at this
        rw [this]
        exact cellOp_add c _ _
      · rfl

theorem foldlM_scale {α β α' β' : Type} (f : β → α → Except PyErr β) (g : β' → α' → Except PyErr β')
    (h : β → β') (k : α → α') (hg : ∀ b a, g (h b) (k a) = (f b a).map h) (l : List α) (b : β) :
    (l.map k).foldlM g (h b) = (l.foldlM f b).map h := by
  induction l generalizing b with
  | nil => rfl
  | cons a l ih =>
    rw [List.map_cons, List.foldlM_cons, List.foldlM_cons, hg]
    cases f b a with
    | error x => rfl
    | ok y => exact ih y

theorem systemLoss_scale {e : ℚ} (c : ℚ) (he : 0 < e) (i : Input) (outs : List Outage) :
    systemLoss (scaleInput c e i) (outs.map (scaleOutage c)) = (systemLoss i outs).map (scaleSys c) := by
  unfold systemLoss
  have : (⟨(scaleInput c e i).index.map fun _ => some 0, (scaleInput c e i).cum⟩ : SystemLoss) =
      scaleSys c ⟨i.index.map fun _ => some 0, i.cum⟩ := by
    simp [scaleSys, scaleInput, scaleC]
  rw [this]
  exact foldlM_scale (fillOutage i) (fillOutage (scaleInput c e i)) (scaleSys c) (scaleOutage c)
    (fun b a => fillOutage_scale c he i b a) outs _

theorem lossTotal_scale (c : ℚ) (sub : List ℚ) (sys : List Cell) :
    lossTotal (sub.map (c * ·)) (scaleC c sys) = scaleC c (lossTotal sub sys) := by
  unfold lossTotal scaleC
  rw [List.zipWith_map, List.map_zipWith]
  congr 1
  funext a b
  exact cellOp_add c b (some a)

/-- lost and actual energy of a period times `c` -/
def scaleRow (c : ℚ) (r : Row) : Row := { r with lost := mc c r.lost, actual := mc c r.actual }

theorem availabilityOf_scale {c : ℚ} (hc : 0 < c) (l a : Cell) :
    availabilityOf (mc c l) (mc c a) = availabilityOf l a := by
  cases l with
  | none => rfl
  | some x =>
    cases a with
    | none => rfl
    | some y =>
      simp only [availabilityOf, mc, Option.map_some]
      rw [← mul_add, ofDiv_scale hc]

theorem filter_scaleS (c : ℚ) (p : Int → Bool) (l : List (Int × Cell)) :
    (scaleS c l).filter (fun r => p r.1) = scaleS c (l.filter fun r => p r.1) := by
  unfold scaleS
  rw [List.filter_map]
  rfl

theorem snd_scaleS (c : ℚ) (l : List (Int × Cell)) : (scaleS c l).map Prod.snd = scaleC c (l.map Prod.snd) := by
  simp [scaleS, scaleC, Function.comp_def]

theorem rollup_scale {c : ℚ} (hc : 0 < c) (bin : Int → Int) (cum energy : List (Int × Cell)) :
    rollup bin (scaleS c cum) (scaleS c energy) = (rollup bin cum energy).map (scaleRow c) := by
  unfold rollup
  rw [fst_scaleS, fst_scaleS, List.map_map]
  apply List.map_congr_left
  intro p _
  have hf : firstIn bin p (scaleS c cum) = mc c (firstIn bin p cum) := by
    unfold firstIn
    rw [filter_scaleS c (fun t => decide (bin t = p)), snd_scaleS, valids_scale, List.head?_map]
  have hl : lastIn bin p (scaleS c cum) = mc c (lastIn bin p cum) := by
    unfold lastIn
    rw [filter_scaleS c (fun t => decide (bin t = p)), snd_scaleS, valids_scale, List.getLast?_map]
  simp only [Function.comp_apply]
  rw [hf, hl, filter_scaleS c (fun t => decide (bin t = p)), snd_scaleS, valids_scale, sumQ_scale, cellOp_sub]
  have hn : (scaleS c (energy.filter fun r => decide (bin r.1 = p)) = []) =
      ((energy.filter fun r => decide (bin r.1 = p)) = []) := by
    simp [scaleS]
  simp only [hn]
  have hlost : (if (energy.filter fun r => decide (bin r.1 = p)) = [] then none
      else some (c * (valids ((energy.filter fun r => decide (bin r.1 = p)).map Prod.snd)).sum)) =
      mc c (if (energy.filter fun r => decide (bin r.1 = p)) = [] then none
        else some (valids ((energy.filter fun r => decide (bin r.1 = p)).map Prod.snd)).sum) := by
    split_ifs <;> rfl
  rw [hlost, availabilityOf_scale hc]
  rfl

theorem combine_scale {c : ℚ} (hc : 0 < c) (e : ℚ) (a : Args) (i : Input) (total corrected : List Cell) :
    combine (scaleArgs c a) (scaleInput c e i) (scaleC c total) (scaleC c corrected) =
      (combine a i total corrected).map (List.map (scaleRow c)) := by
  unfold combine
  have e1 : (scaleInput c e i).index = i.index := rfl
  have e2 : (scaleInput c e i).freq = i.freq := rfl
  have e3 : (scaleArgs c a).bin = a.bin := rfl
  rw [e1, e2, e3]
  cases a.bin with
  | none => rfl
  | some bin =>
    simp only
    rw [zip_scaleC, zip_scaleC, energyFromPower_scale]
    cases energyFromPower (i.index.zip total) none none .rightLabeled i.freq with
    | error x => rfl
    | ok E =>
      simp only [Except.map]
      rw [rollup_scale hc]

/-- all energies and powers of an object times `c`, its expected power times `e` -/
def scaleObj (c e : ℚ) (o : Obj) : Obj :=
  { input := scaleInput c e o.input, sub := o.sub.map (scaleSub c), dist := o.dist.map (scaleDist c)
    outages := o.outages.map (List.map (scaleOutage c)), sys := o.sys.map (scaleSys c)
    total := o.total.map (scaleC c), results := o.results.map (List.map (scaleRow c)) }

theorem run_scale {c e : ℚ} (hc : 0 < c) (he : 0 < e) (a : Args) (o : Obj) :
    run (scaleArgs c a) (scaleObj c e o) = (scaleObj c e (run a o).1, (run a o).2) := by
  unfold run
  have e1 : (scaleObj c e o).input = scaleInput c e o.input := rfl
  simp only [e1, lossSubsystem_scale hc]
  have e2 : (scaleSub c (lossSubsystem a o.input)).loss = (lossSubsystem a o.input).loss.map (c * ·) := rfl
  have e3 : (scaleSub c (lossSubsystem a o.input)).mask = (lossSubsystem a o.input).mask := rfl
  rw [e2, e3, errorDistributions_scale hc he]
  cases errorDistributions a o.input (lossSubsystem a o.input).loss with
  | error x => rfl
  | ok d =>
    simp only [Except.map]
    rw [outageInfo_scale hc he]
    cases outageInfo o.input (lossSubsystem a o.input).mask d with
    | error x => rfl
    | ok outs =>
      simp only [Except.map]
      rw [systemLoss_scale c he]
      cases systemLoss o.input outs with
      | error x => rfl
      | ok sl =>
        simp only [Except.map]
        have e4 : (scaleSys c sl).loss = scaleC c sl.loss := rfl
        have e5 : (scaleSys c sl).corrected = scaleC c sl.corrected := rfl
        rw [e4, e5, lossTotal_scale, combine_scale hc]
        cases combine a o.input (lossTotal (lossSubsystem a o.input).loss sl.loss) sl.corrected with
        | error x => rfl
        | ok rows => rfl

end Verif.Avail
