import Verif.Lemmas.CodsKalman
import Verif.Lemmas.Filtering

/-! # CODS: a signal with another origin and in another unit -/

namespace Verif.Cods.Aff

open Verif

/-- the signal `s·y + c` -/
def cells (s c : ℚ) (l : List Cell) : List Cell := l.map (Option.map fun v => s * v + c)

/-- the estimate of the level and the rate of that signal -/
def kf (s c : ℚ) (k : KF) : KF :=
  ⟨⟨s * k.s.x + c, s * k.s.r⟩, ⟨s ^ 2 * k.P.a, s ^ 2 * k.P.b, s ^ 2 * k.P.c, s ^ 2 * k.P.d⟩⟩

/-! ## Filling, medians, differences -/

theorem bfill_map (f : ℚ → ℚ) (l : List Cell) : bfill (l.map (Option.map f)) = (bfill l).map (Option.map f) := by
  induction l with
  | nil => rfl
  | cons a l ih =>
    cases a with
    | some a => simp only [List.map_cons, Option.map_some, bfill, ih]
    | none =>
      simp only [List.map_cons, Option.map_none, bfill, ih]
      cases bfill l <;> simp

theorem ffillFrom_map (f : ℚ → ℚ) (l : List Cell) : ∀ p : Cell,
    ffillFrom (p.map f) (l.map (Option.map f)) = (ffillFrom p l).map (Option.map f) := by
  induction l with
  | nil => intro p; rfl
  | cons a l ih =>
    intro p
    cases a with
    | some a => simp only [List.map_cons, Option.map_some, ffillFrom]; rw [← ih]; rfl
    | none => simp only [List.map_cons, Option.map_none, ffillFrom, ih]

theorem ffill_map (f : ℚ → ℚ) (l : List Cell) : ffill (l.map (Option.map f)) = (ffill l).map (Option.map f) :=
  ffillFrom_map f l none

theorem cellAt_map (f : ℚ → ℚ) (l : List Cell) (i : Nat) : cellAt (l.map (Option.map f)) i = (cellAt l i).map f := by
  unfold cellAt
  rw [List.getElem?_map]
  cases l[i]? <;> rfl

theorem valids_map (f : ℚ → ℚ) (l : List Cell) : valids (l.map (Option.map f)) = (valids l).map f := by
  unfold valids
  rw [List.filterMap_map, List.map_filterMap]
  rfl

theorem all_isSome_map (f : ℚ → ℚ) (l : List Cell) : (l.map (Option.map f)).all Option.isSome = l.all Option.isSome := by
  rw [List.all_map]
  congr 1
  funext x
  cases x <;> rfl

theorem median_aff {s : ℚ} (hs : 0 < s) (c : ℚ) (l : List ℚ) :
    median (l.map fun v => s * v + c) = (median l).map fun v => s * v + c :=
  quantile_affine hs c (by norm_num) (by norm_num)

theorem rollMedianC_aff {s : ℚ} (hs : 0 < s) (c : ℚ) (w : Nat) (x : List Cell) :
    rollMedianC w (cells s c x) = cells s c (rollMedianC w x) := by
  unfold rollMedianC cells
  rw [List.map_map, List.length_map]
  apply List.map_congr_left
  intro i _
  simp only [Function.comp_apply]
  have e : ((List.range w).map fun k : Nat => cellAt (x.map (Option.map fun v => s * v + c)) (i - w / 2 + k)) =
      ((List.range w).map fun k : Nat => cellAt x (i - w / 2 + k)).map (Option.map fun v => s * v + c) := by
    rw [List.map_map]
    apply List.map_congr_left
    intro k _
    exact cellAt_map _ _ _
  rw [e, all_isSome_map, valids_map, median_aff hs]
  split_ifs <;> rfl

theorem filledMedian_aff {s : ℚ} (hs : 0 < s) (c : ℚ) (fwd : Bool) (w : Nat) (y : List Cell) :
    filledMedian fwd w (cells s c y) = cells s c (filledMedian fwd w y) := by
  unfold filledMedian
  rw [← rollMedianC_aff hs]
  congr 1
  cases fwd
  · exact bfill_map _ _
  · exact ffill_map _ _

theorem rollFilled_aff {s : ℚ} (hs : 0 < s) (c : ℚ) (fwd : Bool) (w : Nat) (y : List Cell) :
    rollFilled fwd w (cells s c y) = cells s c (rollFilled fwd w y) := by
  unfold rollFilled
  rw [filledMedian_aff hs]
  unfold cells
  rw [ffill_map, bfill_map]

theorem cellOp_sub_aff (s c : ℚ) (x y : Cell) :
    cellOp (fun a b => a - b) (x.map fun v => s * v + c) (y.map fun v => s * v + c) =
      (cellOp (fun a b => a - b) x y).map (s * ·) := by
  cases x <;> cases y <;> simp [cellOp]; ring

theorem cellDiff_aff (s c : ℚ) (x : List Cell) : cellDiff (cells s c x) = (cellDiff x).map (Option.map (s * ·)) := by
  unfold cellDiff cells
  rw [List.map_map, List.length_map]
  apply List.map_congr_left
  intro i _
  simp only [Function.comp_apply]
  rw [cellAt_map, cellAt_map, cellOp_sub_aff]
  split_ifs <;> rfl

theorem cellAbs_scale {s : ℚ} (hs : 0 < s) (x : List Cell) :
    cellAbs (x.map (Option.map (s * ·))) = (cellAbs x).map (Option.map (s * ·)) := by
  unfold cellAbs
  rw [List.map_map, List.map_map]
  apply List.map_congr_left
  intro v _
  cases v with
  | none => rfl
  | some v => simp [abs_mul, abs_of_pos hs]

theorem cellQuantile_scale {s : ℚ} (hs : 0 < s) (x : List Cell) {q : ℚ} (h0 : 0 ≤ q) (h1 : q ≤ 1) :
    cellQuantile (x.map (Option.map (s * ·))) q = (cellQuantile x q).map (s * ·) := by
  unfold cellQuantile
  rw [valids_map, quantile_smul hs h0 h1]

/-! ## Events -/

theorem soilingEvents_aff {s : ℚ} (hs : 0 < s) (c : ℚ) (fwd : Bool) (t : ℚ) (y : List Cell) :
    soilingEvents fwd t (cells s c y) = soilingEvents fwd t y := by
  unfold soilingEvents
  rw [filledMedian_aff hs, cellDiff_aff, cellAbs_scale hs, cellQuantile_scale hs _ (by norm_num) (by norm_num),
    cellQuantile_scale hs _ (by norm_num) (by norm_num), List.map_map]
  apply List.map_congr_left
  intro d _
  simp only [Function.comp_apply]
  generalize cellQuantile (cellAbs (cellDiff (filledMedian fwd 9 y))) (99 / 100) = a
  generalize cellQuantile (cellAbs (cellDiff (filledMedian fwd 9 y))) (1 / 100) = b
  have e : cellOp (fun q3 q1 => q1 - t * (q3 - q1)) (a.map (s * ·)) (b.map (s * ·)) =
      (cellOp (fun q3 q1 => q1 - t * (q3 - q1)) a b).map (s * ·) := by
    cases a <;> cases b <;> simp [cellOp]; ring
  rw [e]
  exact cellCmp_scale _ (fun a b => lt_scale hs a b) _ _

theorem rollingMedianCe_aff {s : ℚ} (hs : 0 < s) (c : ℚ) (fwd : Bool) (w : Nat) (t : ℚ) (y : List Cell) :
    rollingMedianCe fwd w t (cells s c y) = ((rollingMedianCe fwd w t y).1, cells s c (rollingMedianCe fwd w t y).2) := by
  unfold rollingMedianCe
  rw [filledMedian_aff hs, cellDiff_aff, cellAbs_scale hs, cellQuantile_scale hs _ (by norm_num) (by norm_num),
    cellQuantile_scale hs _ (by norm_num) (by norm_num), List.map_map]
  congr 1
  apply List.map_congr_left
  intro d _
  simp only [Function.comp_apply]
  generalize cellQuantile (cellAbs (cellDiff (filledMedian fwd w y))) (3 / 4) = a
  generalize cellQuantile (cellAbs (cellDiff (filledMedian fwd w y))) (1 / 4) = b
  have e : cellOp (fun q3 q1 => q3 + t * (q3 - q1)) (a.map (s * ·)) (b.map (s * ·)) =
      (cellOp (fun q3 q1 => q3 + t * (q3 - q1)) a b).map (s * ·) := by
    cases a <;> cases b <;> simp [cellOp]; ring
  rw [e]
  exact cellCmp_scale _ (fun a b => lt_scale hs b a) _ _

theorem better_map {f : ℚ → ℚ} (hf : ∀ a b, f a < f b ↔ a < b) (best : Option (Nat × ℚ)) (i : Nat) (v : Cell) :
    better (best.map fun p => (p.1, f p.2)) i (v.map f) = (better best i v).map fun p => (p.1, f p.2) := by
  cases v with
  | none => rfl
  | some v =>
    cases best with
    | none => rfl
    | some b =>
      simp only [better, Option.map_some, hf]
      split_ifs <;> rfl

theorem argmaxFrom_map {f : ℚ → ℚ} (hf : ∀ a b, f a < f b ↔ a < b) (m : List Cell) (k : Nat) :
    ∀ (lo : Nat) (best : Option (Nat × ℚ)), argmaxFrom (m.map (Option.map f)) lo k (best.map fun p => (p.1, f p.2)) =
      (argmaxFrom m lo k best).map fun p => (p.1, f p.2) := by
  induction k with
  | zero => intro lo best; rfl
  | succ k ih =>
    intro lo best
    unfold argmaxFrom
    rw [cellAt_map, better_map hf, ih]

theorem argmaxCell_map {f : ℚ → ℚ} (hf : ∀ a b, f a < f b ↔ a < b) (m : List Cell) (lo hi : Nat) :
    argmaxCell (m.map (Option.map f)) lo hi = argmaxCell m lo hi := by
  unfold argmaxCell
  have := argmaxFrom_map hf m (hi + 1 - lo) lo none
  rw [Option.map_none] at this
  rw [this, Option.map_map]
  rfl

theorem collapseLoop_map {f : ℚ → ℚ} (hf : ∀ a b, f a < f b ↔ a < b) (m : List Cell) (n hi fuel : Nat) :
    ∀ (dummy out : List Bool) (start : Nat),
      collapseLoop (m.map (Option.map f)) n hi fuel dummy out start = collapseLoop m n hi fuel dummy out start := by
  induction fuel with
  | zero => intro dummy out start; rfl
  | succ fuel ih =>
    intro dummy out start
    unfold collapseLoop
    simp only [argmaxCell_map hf, ih]

theorem collapse_map {f : ℚ → ℚ} (hf : ∀ a b, f a < f b ↔ a < b) (cand : List Bool) (m : List Cell) (n : Nat) :
    collapse cand (m.map (Option.map f)) n = collapse cand m n := by
  unfold collapse
  simp only [List.length_map, collapseLoop_map hf]

theorem mono {s : ℚ} (hs : 0 < s) (a b : ℚ) : s * a < s * b ↔ a < b := mul_lt_mul_iff_right₀ hs

theorem ownEvents_aff {s : ℚ} (hs : 0 < s) (c : ℚ) (y : List Cell) : ownEvents (cells s c y) = ownEvents y := by
  unfold ownEvents
  rw [rollingMedianCe_aff hs, cellDiff_aff, collapse_map (mono hs)]

theorem startEvents_aff {s : ℚ} (hs : 0 < s) (c : ℚ) (y : List Cell) (pre : Prescient) :
    startEvents (cells s c y) pre = startEvents y pre := by
  unfold startEvents
  have hl : (cells s c y).length = y.length := List.length_map _
  cases pre <;> simp only [ownEvents_aff hs, hl]

/-! ## Noise and start -/

theorem sum_scale (s : ℚ) (l : List ℚ) : (l.map (s * ·)).sum = s * l.sum := by
  induction l with
  | nil => simp
  | cons a l ih => simp only [List.map_cons, List.sum_cons, ih]; ring

theorem cellVar_scale (s : ℚ) (x : List Cell) : cellVar (x.map (Option.map (s * ·))) = (cellVar x).map (s ^ 2 * ·) := by
  unfold cellVar
  rw [valids_map, List.length_map, sum_scale]
  split_ifs
  · rfl
  · simp only [Option.map_some, Option.some.injEq, List.map_map]
    rw [← mul_div_assoc, ← sum_scale (s ^ 2) (List.map _ _), List.map_map]
    congr 2
    apply List.map_congr_left
    intro v _
    simp only [Function.comp_apply]
    ring

theorem noise_aff {s : ℚ} (hs : 0 < s) (c : ℚ) (fwd : Bool) (w : Nat) (y : List Cell) :
    cellVar ((List.range (cells s c y).length).map fun i =>
        cellOp (fun a b => a - b) (cellAt (rollFilled fwd w (cells s c y)) i) (cellAt (cells s c y) i)) =
      (cellVar ((List.range y.length).map fun i =>
        cellOp (fun a b => a - b) (cellAt (rollFilled fwd w y) i) (cellAt y i))).map (s ^ 2 * ·) := by
  rw [← cellVar_scale, rollFilled_aff hs, List.map_map]
  congr 1
  have hl : (cells s c y).length = y.length := List.length_map _
  rw [hl]
  apply List.map_congr_left
  intro i _
  simp only [Function.comp_apply]
  unfold cells
  rw [cellAt_map, cellAt_map, cellOp_sub_aff]

theorem pairSlopes_aff (s c : ℚ) (pts : List (ℚ × ℚ)) :
    pairSlopes (pts.map fun p => (p.1, s * p.2 + c)) = (pairSlopes pts).map (s * ·) := by
  unfold pairSlopes
  rw [List.flatMap_map, List.map_flatMap]
  apply List.flatMap_congr
  intro p _
  rw [List.filterMap_map, List.map_filterMap]
  apply List.filterMap_congr
  intro q _
  simp only [Function.comp_apply]
  split_ifs
  · simp only [Option.map_some, Option.some.injEq]; ring
  · rfl

theorem theil_aff {s : ℚ} (hs : 0 < s) (c : ℚ) {pts : List (ℚ × ℚ)} (h : pairSlopes pts ≠ []) :
    (theil (fun _ => 0) (pts.map fun p => (p.1, s * p.2 + c))).slope = s * (theil (fun _ => 0) pts).slope ∧
    (theil (fun _ => 0) (pts.map fun p => (p.1, s * p.2 + c))).intercept = s * (theil (fun _ => 0) pts).intercept + c := by
  have hne : ∀ {l : List ℚ}, l ≠ [] → sortQ l ≠ [] := by
    intro l hl e
    have := sortQ_length_pos hl
    rw [e] at this
    exact absurd this (by simp)
  have hpts : pts ≠ [] := by rintro rfl; exact h rfl
  unfold theil
  simp only [pairSlopes_aff]
  rw [if_neg (hne h), if_neg (hne (by simpa using h))]
  simp only [List.map_map]
  have e1 : pts.map (Prod.snd ∘ fun p : ℚ × ℚ => (p.1, s * p.2 + c)) = (pts.map Prod.snd).map fun v => s * v + c := by
    rw [List.map_map]; rfl
  have e2 : pts.map (Prod.fst ∘ fun p : ℚ × ℚ => (p.1, s * p.2 + c)) = pts.map Prod.fst := rfl
  rw [e1, e2, median_aff hs, median_smul hs]
  obtain ⟨a, ha⟩ := Option.isSome_iff_exists.mp (median_isSome.mpr h)
  obtain ⟨b, hb⟩ := Option.isSome_iff_exists.mp ((median_isSome (l := pts.map Prod.snd)).mpr (by simpa using hpts))
  rw [ha, hb]
  simp only [Option.map_some, Option.getD_some]
  exact ⟨trivial, by ring⟩

/-! ## Filter -/

theorem predict_aff (s c pn u : ℚ) (k : KF) : kPredict (s * pn) (s * u) (kf s c k) = kf s c (kPredict pn u k) := by
  unfold kPredict kf
  simp only [V2.add, M2.app, kF, M2.add, M2.mul, M2.tr, kQ]
  congr 2 <;> ring

theorem update_aff {s : ℚ} (hs : s ≠ 0) (c R z : ℚ) (k : KF) :
    kUpdate (s ^ 2 * R) (s * z + c) (kf s c k) = kf s c (kUpdate R z k) := by
  have h2 : s ^ 2 ≠ 0 := pow_ne_zero 2 hs
  have eS : kS (s ^ 2 * R) (kf s c k) = s ^ 2 * kS R k := by unfold kS kf; ring
  have ea : ∀ x, s ^ 2 * x / kS (s ^ 2 * R) (kf s c k) = x / kS R k := by
    intro x; rw [eS, mul_div_mul_left _ _ h2]
  have e1 : (kf s c k).P.a / kS (s ^ 2 * R) (kf s c k) = k.P.a / kS R k := ea _
  have e2 : (kf s c k).P.c / kS (s ^ 2 * R) (kf s c k) = k.P.c / kS R k := ea _
  unfold kUpdate
  rw [e1, e2]
  generalize k.P.a / kS R k = g
  generalize k.P.c / kS R k = g'
  unfold kf
  simp only [V2.add, M2.add, M2.mul, M2.tr]
  congr 2 <;> ring

theorem updateDay_aff {s : ℚ} (hs : s ≠ 0) (c R : ℚ) (k : KF) (z : Cell) :
    updateDay (s ^ 2 * R) (kf s c k) (z.map fun v => s * v + c) = kf s c (updateDay R k z) := by
  cases z with
  | none => rfl
  | some z => exact update_aff hs c R z k

theorem qAt_aff (s c : ℚ) {l : List ℚ} {i : Nat} (h : i < l.length) : qAt (l.map fun v => s * v + c) i = s * qAt l i + c := by
  unfold qAt
  rw [List.getD_eq_getElem?_getD, List.getD_eq_getElem?_getD, List.getElem?_map, List.getElem?_eq_getElem h]
  rfl

theorem qAt_scale (s : ℚ) (l : List ℚ) (i : Nat) : qAt (l.map (s * ·)) i = s * qAt l i := by
  unfold qAt
  rw [List.getD_eq_getElem?_getD, List.getD_eq_getElem?_getD, List.getElem?_map]
  cases l[i]? <;> simp

theorem npDiff_aff (s c : ℚ) (l : List ℚ) : npDiff (l.map fun v => s * v + c) = (npDiff l).map (s * ·) := by
  unfold npDiff
  rw [List.length_map, List.map_map]
  apply List.map_congr_left
  intro i hi
  rw [List.mem_range] at hi
  rw [qAt_aff _ _ (by omega), qAt_aff _ _ (by omega)]
  simp only [Function.comp_apply]
  ring

theorem argmaxQ_scale {s : ℚ} (hs : 0 < s) (l : List ℚ) : argmaxQ (l.map (s * ·)) = argmaxQ l := by
  unfold argmaxQ
  have : (l.map (s * ·)).map some = (l.map some).map (Option.map (s * ·)) := by
    rw [List.map_map, List.map_map]; rfl
  rw [this, argmaxCell_map (mono hs), List.length_map]

theorem setControl_aff {s : ℚ} (hs : 0 < s) (c : ℚ) (k : KF) (R : ℚ) {win : List ℚ} (h8 : 8 < win.length) (i : Nat) (ce : List Nat) :
    setControl (kf s c k).s (s ^ 2 * R) (win.map fun v => s * v + c) i ce =
      (s * (setControl k.s R win i ce).1, (setControl k.s R win i ce).2) := by
  unfold setControl
  rw [npDiff_aff, argmaxQ_scale hs, qAt_aff _ _ h8, qAt_scale]
  have e1 : s * qAt win 8 + c - ((kf s c k).s.x + (kf s c k).s.r) = s * (qAt win 8 - (k.s.x + k.s.r)) := by
    unfold kf; ring
  have e2 : s ^ 2 * R < 4 * (s * qAt win 8 + c - ((kf s c k).s.x + (kf s c k).s.r)) ^ 2 ↔
      R < 4 * (qAt win 8 - (k.s.x + k.s.r)) ^ 2 := by
    rw [e1, show 4 * (s * (qAt win 8 - (k.s.x + k.s.r))) ^ 2 = s ^ 2 * (4 * (qAt win 8 - (k.s.x + k.s.r)) ^ 2) by ring]
    exact mono (by positivity) _ _
  have e3 : 0 < s * qAt (npDiff win) (argmaxQ (npDiff win)) ↔ 0 < qAt (npDiff win) (argmaxQ (npDiff win)) :=
    mul_pos_iff_of_pos_left hs
  simp only [e2, e3]
  rw [e1]
  split_ifs <;> simp

theorem predictDay_aff {s : ℚ} (hs : 0 < s) (c pn R : ℚ) {n : Nat} {rm7 : List ℚ} (hn : rm7.length = n) (se : List Nat) (i : Nat) (k : KF)
    (ce : List Nat) :
    predictDay (s * pn) (s ^ 2 * R) n (rm7.map fun v => s * v + c) se i (kf s c k) ce =
      (kf s c (predictDay pn R n rm7 se i k ce).1, (predictDay pn R n rm7 se i k ce).2) := by
  unfold predictDay
  by_cases hc : controlled n i ce se
  · simp only [if_pos hc]
    have hc' := of_decide_eq_true hc
    have e : ((rm7.map fun v => s * v + c).drop (i - 5)).take 11 = ((rm7.drop (i - 5)).take 11).map fun v => s * v + c := by
      rw [List.map_take, List.map_drop]
    rw [e, setControl_aff hs c k R (by rw [List.length_take, List.length_drop]; omega) i ce, predict_aff]
  · simp only [if_neg hc]
    have := predict_aff s c pn 0 k
    rw [mul_zero] at this
    rw [this]

theorem forward_aff {s : ℚ} (hs : 0 < s) (c pn R : ℚ) {n : Nat} {rm7 : List ℚ} (hn : rm7.length = n) (se : List Nat) (zs : List Cell) :
    ∀ (i : Nat) (k : KF) (ce : List Nat),
      forwardFrom (s * pn) (s ^ 2 * R) n (rm7.map fun v => s * v + c) se i (kf s c k) ce (cells s c zs) =
        ((forwardFrom pn R n rm7 se i k ce zs).1.map (kf s c), (forwardFrom pn R n rm7 se i k ce zs).2) := by
  induction zs with
  | nil => intro i k ce; rfl
  | cons z zs ih =>
    intro i k ce
    unfold cells at ih ⊢
    simp only [List.map_cons, forwardFrom]
    rw [predictDay_aff hs c pn R hn]
    simp only
    rw [updateDay_aff hs.ne', ih]

/-! ## Smoother -/

theorem inv_scale {s : ℚ} (hs : s ≠ 0) (m : M2) :
    M2.inv ⟨s ^ 2 * m.a, s ^ 2 * m.b, s ^ 2 * m.c, s ^ 2 * m.d⟩ =
      m.inv.map fun n => ⟨n.a / s ^ 2, n.b / s ^ 2, n.c / s ^ 2, n.d / s ^ 2⟩ := by
  have h2 : s ^ 2 ≠ 0 := pow_ne_zero 2 hs
  have ed : M2.det ⟨s ^ 2 * m.a, s ^ 2 * m.b, s ^ 2 * m.c, s ^ 2 * m.d⟩ = s ^ 2 * (s ^ 2 * m.det) := by
    unfold M2.det; ring
  unfold M2.inv
  rw [ed]
  by_cases h : m.det = 0
  · rw [if_pos (by rw [h]; ring), if_pos h]; rfl
  · rw [if_neg (mul_ne_zero h2 (mul_ne_zero h2 h)), if_neg h]
    simp only [Except.map]
    have e : ∀ x, s ^ 2 * x / (s ^ 2 * (s ^ 2 * m.det)) = x / m.det / s ^ 2 := by
      intro x
      rw [mul_div_mul_left _ _ h2, div_div, mul_comm]
    rw [e, e, show -(s ^ 2 * m.b) = s ^ 2 * -m.b by ring, show -(s ^ 2 * m.c) = s ^ 2 * -m.c by ring, e, e]

theorem rtsStep_aff {s : ℚ} (hs : s ≠ 0) (c pn : ℚ) (k n : KF) :
    rtsStep (s * pn) (kf s c k) (kf s c n) = (rtsStep pn k n).map (kf s c) := by
  have h2 : s ^ 2 ≠ 0 := pow_ne_zero 2 hs
  have hpp : ((kF.mul (kf s c k).P).mul kF.tr).add (kQ (s * pn)) =
      ⟨s ^ 2 * (((kF.mul k.P).mul kF.tr).add (kQ pn)).a, s ^ 2 * (((kF.mul k.P).mul kF.tr).add (kQ pn)).b,
       s ^ 2 * (((kF.mul k.P).mul kF.tr).add (kQ pn)).c, s ^ 2 * (((kF.mul k.P).mul kF.tr).add (kQ pn)).d⟩ := by
    unfold kf
    simp only [kF, M2.add, M2.mul, M2.tr, kQ]
    congr 1 <;> ring
  unfold rtsStep
  simp only
  rw [hpp]
  generalize ((kF.mul k.P).mul kF.tr).add (kQ pn) = pp
  rw [inv_scale hs]
  cases pp.inv with
  | error e => rfl
  | ok ip =>
    show Except.ok _ = Except.ok _
    congr 1
    have eg : ((kf s c k).P.mul kF.tr).mul ⟨ip.a / s ^ 2, ip.b / s ^ 2, ip.c / s ^ 2, ip.d / s ^ 2⟩ = (k.P.mul kF.tr).mul ip := by
      unfold kf
      simp only [kF, M2.mul, M2.tr]
      have e : ∀ x y, s ^ 2 * x * (y / s ^ 2) = x * y := by
        intro x y
        rw [mul_assoc, mul_left_comm, mul_div_cancel₀ _ h2]
      congr 1 <;> (field_simp)
    rw [eg]
    generalize (k.P.mul kF.tr).mul ip = g
    unfold kf
    simp only [V2.add, V2.sub, M2.app, kF, M2.add, M2.sub, M2.mul, M2.tr]
    congr 2 <;> ring

theorem rts_aff {s : ℚ} (hs : s ≠ 0) (c pn : ℚ) : ∀ l : List KF, rts (s * pn) (l.map (kf s c)) = (rts pn l).map (List.map (kf s c)) := by
  intro l
  induction l with
  | nil => rfl
  | cons k l ih =>
    cases l with
    | nil => rfl
    | cons k2 l =>
      simp only [List.map_cons] at ih ⊢
      unfold rts
      rw [ih]
      generalize rts pn (k2 :: l) = X
      cases X with
      | error e => rfl
      | ok m =>
        cases m with
        | nil => rfl
        | cons n m =>
          show (rtsStep (s * pn) (kf s c k) (kf s c n) >>= fun k' => Except.ok (k' :: (n :: m).map (kf s c))) =
            (rtsStep pn k n >>= fun k' => Except.ok (k' :: n :: m)).map (List.map (kf s c))
          rw [rtsStep_aff hs]
          cases rtsStep pn k n <;> rfl

theorem smoothFrom_aff {s : ℚ} (hs : s ≠ 0) (c pn : ℚ) (raw : List KF) :
    ∀ b : List Nat, smoothFrom (s * pn) (raw.map (kf s c)) b = (smoothFrom pn raw b).map (List.map (kf s c)) := by
  intro b
  induction b with
  | nil => rfl
  | cons x b ih =>
    cases b with
    | nil => simp only [smoothFrom, Except.map, List.map_drop]
    | cons y b =>
      unfold smoothFrom
      rw [ih, ← List.map_drop, ← List.map_take, rts_aff hs]
      generalize smoothFrom pn raw (y :: b) = X
      generalize rts pn ((raw.drop x).take (y - x)) = Y
      cases Y with
      | error e => rfl
      | ok m =>
        cases X with
        | error e => rfl
        | ok m' =>
          show Except.ok _ = Except.ok _
          rw [List.map_append]

theorem smoothResults_aff {s : ℚ} (hs : s ≠ 0) (c pn : ℚ) (raw : List KF) (ce se : List Nat) :
    smoothResults (s * pn) (raw.map (kf s c)) ce se = (smoothResults pn raw ce se).map (List.map (kf s c)) := by
  unfold smoothResults
  rw [List.length_map, smoothFrom_aff hs]

/-! ## Passes -/

/-- the parameters in the other unit -/
def opts (s : ℚ) (o : KalmanOpts) : KalmanOpts :=
  { o with processNoise := s * o.processNoise, zsStd := s * o.zsStd, rateStd := s * o.rateStd, maxRate := s * o.maxRate }

theorem initKF_aff {s c : ℚ} {fit fit' : TheilFit} (h1 : fit'.slope = s * fit.slope) (h2 : fit'.intercept = s * fit.intercept + c)
    (a b : ℚ) : initKF fit' (s * a) (s * b) = kf s c (initKF fit a b) := by
  unfold initKF kf
  rw [h1, h2]
  simp only
  congr 2 <;> ring

theorem filterPass_aff {s : ℚ} (hs : 0 < s) (c : ℚ) (o : KalmanOpts) (zs : List Cell) {rm7 : List ℚ} (hn : rm7.length = zs.length) (R : ℚ)
    {fit fit' : TheilFit} (h1 : fit'.slope = s * fit.slope) (h2 : fit'.intercept = s * fit.intercept + c) (se : List Nat) (a b : ℚ)
    (ce : List Nat) :
    filterPass (opts s o) (cells s c zs) (rm7.map fun v => s * v + c) (s ^ 2 * R) fit' se (s * a) (s * b) ce =
      (filterPass o zs rm7 R fit se a b ce).map fun p => (p.1, p.2.1.map (kf s c), s ^ 2 * p.2.2.1, s ^ 2 * p.2.2.2) := by
  have hl : (cells s c zs).length = zs.length := List.length_map _
  unfold filterPass
  simp only
  rw [hl, initKF_aff h1 h2]
  show (smoothResults (s * o.processNoise) (forwardFrom (s * o.processNoise) _ _ _ _ _ _ _ _).1 _ _).map _ = _
  rw [show (opts s o).processNoise = s * o.processNoise from rfl, forward_aff hs c o.processNoise R hn]
  simp only
  rw [smoothResults_aff hs.ne']
  generalize forwardFrom o.processNoise R zs.length rm7 se 0 (initKF fit a b) ce zs = F
  generalize smoothResults o.processNoise F.1 F.2 se = X
  cases X with
  | error e => rfl
  | ok m =>
    simp only [Except.map, List.getLast?_map]
    cases F.1.getLast? <;> simp [kf]

/-! ## Revision -/

theorem weekMedian_aff {s : ℚ} (hs : 0 < s) (c : ℚ) (x : List ℚ) (i : Nat) :
    weekMedian (x.map fun v => s * v + c) i = (weekMedian x i).map fun v => s * v + c := by
  unfold weekMedian
  rw [List.length_map, ← List.map_drop, ← List.map_take, median_aff hs]
  split_ifs <;> rfl

theorem npQuantile_aff {s : ℚ} (hs : 0 < s) (c : ℚ) (x : List Cell) {q : ℚ} (h0 : 0 ≤ q) (h1 : q ≤ 1) :
    npQuantile (cells s c x) q = (npQuantile x q).map fun v => s * v + c := by
  unfold npQuantile cells
  rw [all_isSome_map, valids_map, quantile_affine hs c h0 h1]
  split_ifs <;> rfl

theorem lower_aff {s : ℚ} (hs : 0 < s) (c : ℚ) (x : List Cell) (m : ℚ) :
    numericOutliers (cells s c x) m .lower = numericOutliers x m .lower := by
  unfold numericOutliers
  rw [npQuantile_aff hs c x (by norm_num) (by norm_num), npQuantile_aff hs c x (by norm_num) (by norm_num)]
  by_cases hx : x = []
  · subst hx; rfl
  · rw [if_neg (by simpa [cells] using hx), if_neg hx]
    simp only
    unfold cells
    rw [List.map_map]
    congr 1
    apply List.map_congr_left
    intro v _
    generalize npQuantile x (3 / 4) = a
    generalize npQuantile x (1 / 4) = b
    cases v with
    | none => cases a <;> cases b <;> rfl
    | some v =>
      cases a with
      | none => rfl
      | some a =>
        cases b with
        | none => rfl
        | some b =>
          simp only [Function.comp_apply, Option.map_some, cellOp, cellCmp]
          rw [show s * b + c - m * (s * a + c - (s * b + c)) = s * (b - m * (a - b)) + c by ring]
          simp [hs]

theorem pruneEvents_aff {s : ℚ} (hs : 0 < s) (c cps : ℚ) (pis : List ℚ) (ce : List Nat) :
    pruneEvents cps (pis.map fun v => s * v + c) ce = pruneEvents cps pis ce := by
  unfold pruneEvents
  have e : ce.map (weekMedian (pis.map fun v => s * v + c)) = cells s c (ce.map (weekMedian pis)) := by
    unfold cells
    rw [List.map_map]
    apply List.map_congr_left
    intro i _
    exact weekMedian_aff hs c pis i
  rw [e, lower_aff hs]

theorem addEvents_scale {s : ℚ} (hs : 0 < s) (mr : ℚ) (rates : List ℚ) (ce : List Nat) :
    addEvents (s * mr) (rates.map (s * ·)) ce = addEvents mr rates ce := by
  unfold addEvents
  have e : (rates.map (s * ·)).map (fun r => decide (s * mr < r)) = rates.map fun r => decide (mr < r) := by
    rw [List.map_map]
    apply List.map_congr_left
    intro r _
    exact lt_scale hs mr r
  have e' : (rates.map (s * ·)).map some = (rates.map some).map (Option.map (s * ·)) := by
    rw [List.map_map, List.map_map]; rfl
  rw [e, e', collapse_map (mono hs)]

theorem revise_aff {s : ℚ} (hs : 0 < s) (c : ℚ) (o : KalmanOpts) {st st' : KalmanState} (h1 : st'.ce = st.ce)
    (h2 : st'.smooth = st.smooth.map (kf s c)) : revise (opts s o) st' = revise o st := by
  unfold revise
  rw [h1, h2, List.map_map, List.map_map]
  have e1 : st.smooth.map ((fun k : KF => k.s.x) ∘ kf s c) = (st.smooth.map fun k => k.s.x).map fun v => s * v + c := by
    rw [List.map_map]; rfl
  have e2 : st.smooth.map ((fun k : KF => k.s.r) ∘ kf s c) = (st.smooth.map fun k => k.s.r).map (s * ·) := by
    rw [List.map_map]; rfl
  rw [e1, e2, show (opts s o).pruning = o.pruning from rfl, show (opts s o).maxRate = s * o.maxRate from rfl, pruneEvents_aff hs]
  simp only [addEvents_scale hs]

end Verif.Cods.Aff
