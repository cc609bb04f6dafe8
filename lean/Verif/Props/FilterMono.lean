import Verif.Props.Filtering
import Verif.Props.Outliers
import Verif.Lemmas.Percentile

/-! # Properties C126 (looser limits keep more) and C127 (rolling filters: calendar, direction, locality) -/

namespace Verif
open Spec

/-! ## Specification -/

/-- every point the first mask keeps is kept by the second -/
def Spec.KeepsAll (a b : List Bool) : Prop := ∀ i : Nat, a[i]? = some true → b[i]? = some true

/-- the record moved by `d` -/
def Spec.moved (d : Int) (s : List (Int × Cell)) : List (Int × Cell) := s.map fun r => (r.1 + d, r.2)

/-- the record read backwards in time -/
def Spec.backwards (s : List (Int × Cell)) : List (Int × Cell) := (s.map fun r => (-r.1, r.2)).reverse

/-! ## C126 -/

/-- **C126 (ranges).** Moving the lower limit down and the upper limit up never removes a point, for the filters of normalized
energy (where no limit is looser than any), irradiance, cell temperature and hour angle. -/
theorem C126_ranges {lo lo' hi hi' : Flt} (hl : AtMost lo' lo) (hh : AtMost hi hi') (x : Flt) :
    (poaFilter lo hi x = true → poaFilter lo' hi' x = true) ∧
    (tcellFilter lo hi x = true → tcellFilter lo' hi' x = true) ∧
    (hourAngleFilter lo hi x = true → hourAngleFilter lo' hi' x = true) ∧
    (normalizedFilter (some lo) (some hi) x = true → normalizedFilter (some lo') (some hi') x = true) ∧
    (∀ b, normalizedFilter (some lo) b x = true → normalizedFilter none b x = true) ∧
    (∀ a, normalizedFilter a (some hi) x = true → normalizedFilter a none x = true) := by
  obtain ⟨l', l, e1, e2, h1⟩ := hl
  obtain ⟨h, h', e3, e4, h2⟩ := hh
  have low : ∀ {y}, Below lo y → Below lo' y := by
    rintro y ⟨a, b, ea, eb, hab⟩
    rw [e2] at ea; cases ea
    exact ⟨l', b, e1, eb, lt_of_le_of_lt h1 hab⟩
  have high : ∀ {y}, Below y hi → Below y hi' := by
    rintro y ⟨a, b, ea, eb, hab⟩
    rw [e3] at eb; cases eb
    exact ⟨a, h', ea, e4, lt_of_lt_of_le hab h2⟩
  refine ⟨?_, ?_, ?_, ?_, ?_, ?_⟩
  · rw [(C12_poa_tcell _ _ _).1, (C12_poa_tcell _ _ _).1]
    exact fun p => ⟨low p.1, high p.2⟩
  · rw [(C12_poa_tcell _ _ _).2, (C12_poa_tcell _ _ _).2]
    exact fun p => ⟨low p.1, high p.2⟩
  · rw [C12_hour_angle, C12_hour_angle]
    rintro ⟨⟨a, b, ea, eb, hab⟩, ⟨c, d, ec, ed, hcd⟩⟩
    rw [e2] at ea; cases ea
    rw [e3] at ed; cases ed
    exact ⟨⟨l', b, e1, eb, h1.trans hab⟩, ⟨c, h', ec, e4, hcd.trans h2⟩⟩
  · rw [C12_normalized, C12_normalized]
    exact fun p => ⟨low p.1, high p.2⟩
  · intro b
    rw [C12_normalized, C12_normalized]
    rintro ⟨p, q⟩
    refine ⟨?_, q⟩
    obtain ⟨a, c, -, ec, hac⟩ := p
    exact ⟨⊥, c, rfl, ec, lt_of_le_of_lt bot_le hac⟩
  · intro b
    rw [C12_normalized, C12_normalized]
    rintro ⟨p, q⟩
    refine ⟨p, ?_⟩
    obtain ⟨a, c, ea, -, hac⟩ := q
    exact ⟨a, ⊤, ea, rfl, lt_of_lt_of_le hac le_top⟩

/-- **C126 (clear-sky index).** A larger threshold never removes a point. -/
theorem C126_csi {thr thr' : ℚ} (h : thr ≤ thr') (m c : Flt) (hk : csiFilter thr m c = true) : csiFilter thr' m c = true := by
  unfold csiFilter at hk ⊢
  simp only [Bool.and_eq_true] at hk ⊢
  cases hd : Flt.div m c with
  | nan => rw [hd] at hk; simp [Flt.le] at hk
  | ninf => rw [hd] at hk; simp [Flt.le] at hk
  | pinf => rw [hd] at hk; simp [Flt.le] at hk
  | fin q =>
    rw [hd] at hk
    simp only [Flt.le, decide_eq_true_eq] at hk ⊢
    constructor <;> linarith [hk.1, hk.2]

/-- **C126 (insolation_filter).** A lower quantile never removes a point. -/
theorem C126_insolation {x : List Cell} {q q' : ℚ} (h0 : 0 ≤ q') (h : q' ≤ q) (h1 : q ≤ 1) {m m' : List Bool}
    (hm : insolationFilter x q = .ok m) (hm' : insolationFilter x q' = .ok m') : KeepsAll m m' := by
  unfold insolationFilter at hm hm'
  rw [if_neg (by push Not; exact ⟨h0.trans h, h1⟩)] at hm
  rw [if_neg (by push Not; exact ⟨h0, h.trans h1⟩)] at hm'
  simp only [Except.ok.injEq] at hm hm'
  subst hm hm'
  intro i hi
  rw [List.getElem?_map] at hi ⊢
  cases hx : x[i]? with
  | none => rw [hx] at hi; cases hi
  | some c =>
    rw [hx] at hi
    simp only [Option.map_some, Option.some.injEq] at hi ⊢
    cases c with
    | none => simp [cellCmp] at hi
    | some v =>
      cases hq : quantile (valids x) q with
      | none => rw [hq] at hi; simp [cellCmp] at hi
      | some a =>
        obtain ⟨hne, -⟩ := quantile_eq_some hq
        rw [quantile_some hne]
        rw [hq] at hi
        simp only [cellCmp, ge_iff_le, decide_eq_true_eq] at hi ⊢
        exact (quantile_mono (quantile_some hne q') hq h0 h h1).trans hi

/-- **C126 (two_way_window_filter).** A larger threshold never removes a point. -/
theorem C126_two_way (s : Series) (P : Int) {thr thr' : ℚ} (h : thr ≤ thr') :
    KeepsAll (twoWayWindowFilter s P thr) (twoWayWindowFilter s P thr') := by
  intro i hi
  unfold twoWayWindowFilter at hi ⊢
  simp only [List.getElem?_map, Option.map_eq_some_iff, decide_eq_true_eq] at hi ⊢
  obtain ⟨d, hd, hlt⟩ := hi
  exact ⟨d, hd, lt_of_lt_of_le hlt h⟩

/-! ## The rolling filters row by row -/

/-- median of the values `g` gives to the rows in the window of `t` -/
def rollAt (win : Int → Int → Bool) (minP : Nat) (s : Series) (g : Int × Cell → Cell) (t : Int) : Cell :=
  if (valids ((s.filter fun u => win t u.1).map g)).length < minP then none
  else median (valids ((s.filter fun u => win t u.1).map g))

theorem rollMedian_map (win : Int → Int → Bool) (minP : Nat) (s : Series) (g : Int × Cell → Cell) :
    rollMedian win minP (s.map fun r => (r.1, g r)) = s.map fun r => rollAt win minP s g r.1 := by
  unfold rollMedian rollAt
  rw [List.map_map]
  apply List.map_congr_left
  intro r _
  simp only [Function.comp_apply]
  rw [List.filter_map, List.map_map]
  rfl

theorem rollMedian_rows (win : Int → Int → Bool) (minP : Nat) (s : Series) :
    rollMedian win minP s = s.map fun r => rollAt win minP s Prod.snd r.1 := rfl

theorem zipWith_rows {α β γ δ : Type} (f : β → γ → δ) (a : α → β) (b : α → γ) (l : List α) :
    List.zipWith f (l.map a) (l.map b) = l.map fun r => f (a r) (b r) := by
  induction l with
  | nil => rfl
  | cons r l ih => simp only [List.map_cons, List.zipWith_cons_cons, ih]

theorem zip_rows {α β γ : Type} (a : α → β) (b : α → γ) (l : List α) :
    (l.map a).zip (l.map b) = l.map fun r => (a r, b r) := by
  induction l with
  | nil => rfl
  | cons r l ih => simp only [List.map_cons, List.zip_cons_cons, ih]

/-- distance of a row to its rolling median -/
def distAt (s : Series) (k : ℚ) (r : Int × Cell) : Cell :=
  cellOp (fun x y => |x - y|) (rollAt (centerWin k) 1 s Prod.snd r.1) r.2

theorem hampel_rows (s : Series) (k t0 : ℚ) :
    hampelFilter s k t0 = s.map fun r => cellCmp (fun a b => decide (a ≤ b)) (distAt s k r)
      ((rollAt (centerWin k) 1 s (distAt s k) r.1).map fun m => t0 * (14826/10000) * m) := by
  unfold hampelFilter
  simp only [rollMedian_rows (centerWin k) 1 s, zipWith_rows, zip_rows]
  rw [show (fun r : Int × Cell => (r.1, cellOp (fun x y => |x - y|) (rollAt (centerWin k) 1 s Prod.snd r.1) r.2)) =
    fun r => (r.1, distAt s k r) from rfl, rollMedian_map, List.map_map, zipWith_rows]
  rfl

/-- difference of a row to its rolling median -/
def diffAt (s : Series) (win : Int → Int → Bool) (r : Int × Cell) : Cell :=
  cellOp (fun x y => x - y) r.2 (rollAt win 5 s Prod.snd r.1)

/-- strictly between two fences -/
def insideF (f : Cell × Cell) (x : Cell) : Bool :=
  cellCmp (fun a b => decide (a > b)) x f.1 && cellCmp (fun a b => decide (a < b)) x f.2

theorem tukey_rows (s : Series) (P : Int) (k : ℚ) :
    directionalTukeyFilter s P k = s.map fun r =>
      insideF (tukeyFence (s.map (diffAt s (fwdWin P))) k) (diffAt s (fwdWin P) r) ||
      insideF (tukeyFence (s.map (diffAt s (backWin P))) k) (diffAt s (backWin P) r) := by
  unfold directionalTukeyFilter
  simp only [rollMedian_rows, zipWith_rows]
  rfl

/-- a row relative to the scale -/
def scaledRow (s : Series) (r : Int × Cell) : Cell :=
  cellOp (fun x y => x / y) r.2 (if quantile (valids (s.map Prod.snd)) (99/100) = some 0 then none
    else quantile (valids (s.map Prod.snd)) (99/100))

/-- distance of a scaled row to its rolling median, zero if missing -/
def awayAt (s : Series) (win : Int → Int → Bool) (r : Int × Cell) : ℚ :=
  (cellOp (fun x y => |x - y|) (scaledRow s r) (rollAt win 5 s (scaledRow s) r.1)).getD 0

theorem two_way_rows (s : Series) (P : Int) (thr : ℚ) :
    twoWayWindowFilter s P thr = s.map fun r => decide (min (awayAt s (backWin P) r) (awayAt s (fwdWin P) r) < thr) := by
  unfold twoWayWindowFilter
  simp only
  rw [show (fun r : Int × Cell => (r.1, cellOp (fun x y => x / y) r.2 (if quantile (valids (s.map Prod.snd)) (99/100) = some 0
      then none else quantile (valids (s.map Prod.snd)) (99/100)))) = fun r => (r.1, scaledRow s r) from rfl,
    rollMedian_map, rollMedian_map]
  simp only [List.map_map, zipWith_rows]
  rfl

theorem rollAt_nonneg {win : Int → Int → Bool} {minP : Nat} {s : Series} {g : Int × Cell → Cell}
    (hg : ∀ r x, g r = some x → 0 ≤ x) {t : Int} {m : ℚ} (h : rollAt win minP s g t = some m) : 0 ≤ m := by
  unfold rollAt at h
  split_ifs at h
  refine median_ge h ?_
  intro x hx
  obtain ⟨c, hc, rfl⟩ := List.mem_filterMap.mp hx
  obtain ⟨r, -, hr⟩ := List.mem_map.mp hc
  exact hg r _ hr

theorem distAt_nonneg {s : Series} {k : ℚ} (r : Int × Cell) (x : ℚ) (h : distAt s k r = some x) : 0 ≤ x := by
  unfold distAt at h
  revert h
  generalize rollAt (centerWin k) 1 s Prod.snd r.1 = a
  intro h
  cases a with
  | none => cases h
  | some a =>
    cases hr : r.2 with
    | none => rw [hr] at h; cases h
    | some b =>
      rw [hr] at h
      simp only [cellOp, Option.some.injEq] at h
      rw [← h]
      exact abs_nonneg _

/-- **C126 (hampel_filter).** A larger `t0` never removes a point. -/
theorem C126_hampel (s : Series) (k : ℚ) {t0 t0' : ℚ} (h : t0 ≤ t0') :
    KeepsAll (hampelFilter s k t0) (hampelFilter s k t0') := by
  intro i hi
  rw [hampel_rows, List.getElem?_map] at hi ⊢
  cases hs : s[i]? with
  | none => rw [hs] at hi; cases hi
  | some r =>
    rw [hs] at hi
    simp only [Option.map_some, Option.some.injEq] at hi ⊢
    revert hi
    cases hm : rollAt (centerWin k) 1 s (distAt s k) r.1 with
    | none => cases distAt s k r <;> exact fun h => h
    | some m =>
      have hm0 := rollAt_nonneg distAt_nonneg hm
      cases distAt s k r with
      | none => exact fun h => h
      | some d =>
        simp only [Option.map_some, cellCmp, decide_eq_true_eq]
        intro hd
        refine hd.trans (mul_le_mul_of_nonneg_right ?_ hm0)
        linarith

/-- **C126 (directional_tukey_filter).** A larger `k` never removes a point. -/
theorem C126_tukey (s : Series) (P : Int) {k k' : ℚ} (h : k ≤ k') :
    KeepsAll (directionalTukeyFilter s P k) (directionalTukeyFilter s P k') := by
  have key : ∀ (l : List Cell) (x : Cell), insideF (tukeyFence l k) x = true → insideF (tukeyFence l k') x = true := by
    intro l x hx
    unfold tukeyFence insideF at hx ⊢
    simp only [Bool.and_eq_true] at hx ⊢
    refine ⟨hx.1, ?_⟩
    have hx2 := hx.2
    cases x with
    | none => simp [cellCmp] at hx2
    | some v =>
      cases hq : quantile (valids l) (1 / 4) with
      | none => rw [hq] at hx2; simp [cellCmp, cellOp] at hx2
      | some a =>
        obtain ⟨hne, -⟩ := quantile_eq_some hq
        cases hq3 : quantile (valids l) (3 / 4) with
        | none => rw [quantile_some hne] at hq3; cases hq3
        | some b =>
          have hab : a ≤ b := quantile_mono hq hq3 (by norm_num) (by norm_num) (by norm_num)
          rw [hq, hq3] at hx2
          simp only [cellCmp, cellOp, decide_eq_true_eq] at hx2 ⊢
          have : k * (b - a) ≤ k' * (b - a) := mul_le_mul_of_nonneg_right h (by linarith)
          linarith
  intro i hi
  rw [tukey_rows, List.getElem?_map] at hi ⊢
  cases hs : s[i]? with
  | none => rw [hs] at hi; cases hi
  | some r =>
    rw [hs] at hi
    simp only [Option.map_some, Option.some.injEq, Bool.or_eq_true] at hi ⊢
    exact hi.imp (key _ _) (key _ _)

/-! ## C127 -/

theorem rollAt_time {win win' : Int → Int → Bool} {f : Int → Int} (h : ∀ t u, win (f t) (f u) = win' t u) (minP : Nat)
    (s : Series) {g g' : Int × Cell → Cell} (hg : ∀ r ∈ s, g (f r.1, r.2) = g' r) (t : Int) :
    rollAt win minP (s.map fun r => (f r.1, r.2)) g (f t) = rollAt win' minP s g' t := by
  have : ((s.map fun r : Int × Cell => (f r.1, r.2)).filter fun u => win (f t) u.1).map g =
      (s.filter fun u => win' t u.1).map g' := by
    rw [List.filter_map, List.map_map]
    have : ((fun u : Int × Cell => win (f t) u.1) ∘ fun r : Int × Cell => (f r.1, r.2)) = fun u => win' t u.1 := by
      funext u; exact h t u.1
    rw [this]
    apply List.map_congr_left
    intro r hr
    exact hg r (List.mem_of_mem_filter hr)
  unfold rollAt
  rw [this]

theorem rollAt_reverse (win : Int → Int → Bool) (minP : Nat) (s : Series) (g : Int × Cell → Cell) (t : Int) :
    rollAt win minP s.reverse g t = rollAt win minP s g t := by
  have hp : (valids ((s.reverse.filter fun u => win t u.1).map g)).Perm (valids ((s.filter fun u => win t u.1).map g)) := by
    rw [List.filter_reverse, List.map_reverse]
    exact (List.reverse_perm _).filterMap _
  unfold rollAt
  rw [hp.length_eq]
  unfold median
  rw [quantile_perm hp]

theorem values_time (s : Series) (f : Int → Int) : (s.map fun r => (f r.1, r.2)).map Prod.snd = s.map Prod.snd := by
  rw [List.map_map]; rfl

theorem backWin_shift (P d t u : Int) : backWin P (t + d) (u + d) = backWin P t u := by
  unfold backWin; congr 1; apply propext; constructor <;> rintro ⟨h1, h2⟩ <;> constructor <;> omega
theorem fwdWin_shift (P d t u : Int) : fwdWin P (t + d) (u + d) = fwdWin P t u := by
  unfold fwdWin; congr 1; apply propext; constructor <;> rintro ⟨h1, h2⟩ <;> constructor <;> omega
theorem centerWin_shift (k : ℚ) (d t u : Int) : centerWin k (t + d) (u + d) = centerWin k t u := by
  unfold centerWin; congr 1; apply propext
  push_cast
  constructor <;> rintro ⟨h1, h2⟩ <;> constructor <;> linarith
theorem backWin_neg (P t u : Int) : backWin P (-t) (-u) = fwdWin P t u := by
  unfold backWin fwdWin; congr 1; apply propext; constructor <;> rintro ⟨h1, h2⟩ <;> constructor <;> omega
theorem fwdWin_neg (P t u : Int) : fwdWin P (-t) (-u) = backWin P t u := by
  unfold backWin fwdWin; congr 1; apply propext; constructor <;> rintro ⟨h1, h2⟩ <;> constructor <;> omega

/-- filters under a change of time that turns windows into windows -/
theorem hampel_time {f : Int → Int} {k : ℚ} (h : ∀ t u, centerWin k (f t) (f u) = centerWin k t u) (s : Series) (t0 : ℚ) :
    hampelFilter (s.map fun r => (f r.1, r.2)) k t0 = hampelFilter s k t0 := by
  have hd : ∀ r : Int × Cell, distAt (s.map fun r => (f r.1, r.2)) k (f r.1, r.2) = distAt s k r := by
    intro r
    unfold distAt
    rw [rollAt_time h 1 s (g := Prod.snd) (g' := Prod.snd) (fun _ _ => rfl)]
  rw [hampel_rows, hampel_rows, List.map_map]
  apply List.map_congr_left
  intro r _
  simp only [Function.comp_apply]
  rw [hd, rollAt_time h 1 s (g' := distAt s k) (fun r _ => hd r)]

theorem tukey_time {f : Int → Int} {P : Int} {wb wf : Int → Int → Bool} (hb : ∀ t u, backWin P (f t) (f u) = wb t u)
    (hf : ∀ t u, fwdWin P (f t) (f u) = wf t u) (s : Series) (k : ℚ) :
    directionalTukeyFilter (s.map fun r => (f r.1, r.2)) P k = s.map fun r =>
      insideF (tukeyFence (s.map (diffAt s wf)) k) (diffAt s wf r) ||
      insideF (tukeyFence (s.map (diffAt s wb)) k) (diffAt s wb r) := by
  have hd : ∀ {w w' : Int → Int → Bool}, (∀ t u, w (f t) (f u) = w' t u) → ∀ r : Int × Cell,
      diffAt (s.map fun r => (f r.1, r.2)) w (f r.1, r.2) = diffAt s w' r := by
    intro w w' h r
    unfold diffAt
    rw [rollAt_time h 5 s (g := Prod.snd) (g' := Prod.snd) (fun _ _ => rfl)]
  have hl : ∀ {w w' : Int → Int → Bool}, (∀ t u, w (f t) (f u) = w' t u) →
      (s.map fun r => (f r.1, r.2)).map (diffAt (s.map fun r => (f r.1, r.2)) w) = s.map (diffAt s w') := by
    intro w w' h
    rw [List.map_map]
    exact List.map_congr_left fun r _ => hd h r
  rw [tukey_rows, hl hb, hl hf, List.map_map]
  apply List.map_congr_left
  intro r _
  simp only [Function.comp_apply]
  rw [hd hb, hd hf]

theorem two_way_time {f : Int → Int} {P : Int} {wb wf : Int → Int → Bool} (hb : ∀ t u, backWin P (f t) (f u) = wb t u)
    (hf : ∀ t u, fwdWin P (f t) (f u) = wf t u) (s : Series) (thr : ℚ) :
    twoWayWindowFilter (s.map fun r => (f r.1, r.2)) P thr =
      s.map fun r => decide (min (awayAt s wb r) (awayAt s wf r) < thr) := by
  have hs : ∀ r : Int × Cell, scaledRow (s.map fun r => (f r.1, r.2)) (f r.1, r.2) = scaledRow s r := by
    intro r
    unfold scaledRow
    rw [values_time]
  have hd : ∀ {w w' : Int → Int → Bool}, (∀ t u, w (f t) (f u) = w' t u) → ∀ r : Int × Cell,
      awayAt (s.map fun r => (f r.1, r.2)) w (f r.1, r.2) = awayAt s w' r := by
    intro w w' h r
    unfold awayAt
    rw [hs, rollAt_time h 5 s (g' := scaledRow s) (fun r _ => hs r)]
  rw [two_way_rows, List.map_map]
  apply List.map_congr_left
  intro r _
  simp only [Function.comp_apply]
  rw [hd hb, hd hf]

theorem two_way_reverse (s : Series) (P : Int) (thr : ℚ) :
    twoWayWindowFilter s.reverse P thr = (twoWayWindowFilter s P thr).reverse := by
  have hq : quantile (valids (s.reverse.map Prod.snd)) (99 / 100) = quantile (valids (s.map Prod.snd)) (99 / 100) := by
    rw [List.map_reverse]
    exact quantile_perm ((List.reverse_perm _).filterMap _) _
  have hs : scaledRow s.reverse = scaledRow s := by
    funext r
    unfold scaledRow
    rw [hq]
  rw [two_way_rows, two_way_rows, ← List.map_reverse]
  apply List.map_congr_left
  intro r _
  unfold awayAt
  rw [hs, rollAt_reverse, rollAt_reverse]

theorem tukey_reverse (s : Series) (P : Int) (k : ℚ) :
    directionalTukeyFilter s.reverse P k = (directionalTukeyFilter s P k).reverse := by
  have hd : ∀ w, diffAt s.reverse w = diffAt s w := by
    intro w
    funext r
    unfold diffAt
    rw [rollAt_reverse]
  have hf : ∀ w, tukeyFence (s.reverse.map (diffAt s w)) k = tukeyFence (s.map (diffAt s w)) k := by
    intro w
    have hp : (valids (s.reverse.map (diffAt s w))).Perm (valids (s.map (diffAt s w))) := by
      rw [List.map_reverse]; exact (List.reverse_perm _).filterMap _
    unfold tukeyFence
    rw [quantile_perm hp, quantile_perm hp]
  rw [tukey_rows, tukey_rows, ← List.map_reverse]
  apply List.map_congr_left
  intro r _
  rw [hd, hd, hf, hf]

/-- **C127 (calendar).** Moving the whole record in time changes no decision of the rolling filters. -/
theorem C127_moved (d : Int) (s : Series) :
    (∀ P thr, twoWayWindowFilter (moved d s) P thr = twoWayWindowFilter s P thr) ∧
    (∀ P k, directionalTukeyFilter (moved d s) P k = directionalTukeyFilter s P k) ∧
    ∀ k t0, hampelFilter (moved d s) k t0 = hampelFilter s k t0 := by
  refine ⟨fun P thr => ?_, fun P k => ?_, fun k t0 => hampel_time (f := (· + d)) (fun t u => centerWin_shift k d t u) s t0⟩
  · exact (two_way_time (f := (· + d)) (fun t u => backWin_shift P d t u) (fun t u => fwdWin_shift P d t u) s thr).trans
      (two_way_rows s P thr).symm
  · exact (tukey_time (f := (· + d)) (fun t u => backWin_shift P d t u) (fun t u => fwdWin_shift P d t u) s k).trans
      (tukey_rows s P k).symm

/-- **C127 (both directions alike).** The two filters that look into both directions treat them alike: the record read
backwards gets the same decisions, in reverse order. -/
theorem C127_backwards (s : Series) :
    (∀ P thr, twoWayWindowFilter (backwards s) P thr = (twoWayWindowFilter s P thr).reverse) ∧
    ∀ P k, directionalTukeyFilter (backwards s) P k = (directionalTukeyFilter s P k).reverse := by
  refine ⟨fun P thr => ?_, fun P k => ?_⟩
  · unfold backwards
    rw [two_way_reverse]
    congr 1
    rw [two_way_time (f := fun t => -t) (fun t u => backWin_neg P t u) (fun t u => fwdWin_neg P t u) s thr, two_way_rows]
    exact List.map_congr_left fun r _ => by rw [min_comm]
  · unfold backwards
    rw [tukey_reverse]
    congr 1
    rw [tukey_time (f := fun t => -t) (fun t u => backWin_neg P t u) (fun t u => fwdWin_neg P t u) s k, tukey_rows]
    exact List.map_congr_left fun r _ => by rw [Bool.or_comm]

/-- **C127 (locality of hampel_filter).** The decision on a reading at time `t` only depends on the rows less than a window
before it and at most a window after it: two records that agree there give the reading the same decision. -/
theorem C127_hampel_local {s s' : Series} {k t0 : ℚ} {t : Int} {c : Cell} {i i' : Nat} (hi : s[i]? = some (t, c))
    (hi' : s'[i']? = some (t, c))
    (h : (s.filter fun r => decide ((t : ℚ) - k < r.1 ∧ (r.1 : ℚ) ≤ t + k)) =
      s'.filter fun r => decide ((t : ℚ) - k < r.1 ∧ (r.1 : ℚ) ≤ t + k)) :
    (hampelFilter s k t0)[i]? = (hampelFilter s' k t0)[i']? := by
  -- windows of rows in the window of `t` lie in the larger window
  have sub : ∀ u : Int, centerWin k t u = true → ∀ x : Series,
      x.filter (fun r => centerWin k u r.1) =
        (x.filter fun r => decide ((t : ℚ) - k < r.1 ∧ (r.1 : ℚ) ≤ t + k)).filter fun r => centerWin k u r.1 := by
    intro u hu x
    rw [List.filter_filter]
    apply List.filter_congr
    intro r _
    by_cases hw : centerWin k u r.1 = true
    · rw [hw, Bool.true_and]
      unfold centerWin at hu hw
      simp only [decide_eq_true_eq] at hu hw ⊢
      symm
      rw [decide_eq_true_eq]
      constructor <;> linarith [hu.1, hu.2, hw.1, hw.2]
    · simp only [Bool.not_eq_true] at hw
      rw [hw, Bool.false_and]
  have roll : ∀ u : Int, centerWin k t u = true → ∀ g g' : Int × Cell → Cell,
      (∀ r : Int × Cell, centerWin k u r.1 = true → g r = g' r) →
      rollAt (centerWin k) 1 s g u = rollAt (centerWin k) 1 s' g' u := by
    intro u hu g g' hg
    have : (s.filter fun r => centerWin k u r.1).map g = (s'.filter fun r => centerWin k u r.1).map g' := by
      rw [sub u hu s, sub u hu s', h]
      apply List.map_congr_left
      intro r hr
      exact hg r (by simpa using (List.mem_filter.mp hr).2)
    unfold rollAt
    rw [this]
  have dist : ∀ r : Int × Cell, centerWin k t r.1 = true → distAt s k r = distAt s' k r := by
    intro r hr
    unfold distAt
    rw [roll r.1 hr Prod.snd Prod.snd fun _ _ => rfl]
  rw [hampel_rows, hampel_rows, List.getElem?_map, List.getElem?_map, hi, hi']
  simp only [Option.map_some, Option.some.injEq]
  by_cases hk : 0 < k
  · have ht : centerWin k t t = true := by
      unfold centerWin
      simp only [decide_eq_true_eq]
      constructor <;> linarith
    rw [dist (t, c) ht, roll t ht _ _ fun r hr => dist r hr]
  · -- an empty window
    have he : ∀ u r : Int, centerWin k u r = false := by
      intro u r
      unfold centerWin
      simp only [decide_eq_false_iff_not, not_and, not_le]
      intro h1
      linarith
    have hn : ∀ (x : Series) (g : Int × Cell → Cell) (u : Int), rollAt (centerWin k) 1 x g u = none := by
      intro x g u
      unfold rollAt
      rw [if_pos]
      simp [he, valids]
    rw [hn, hn]
    cases distAt s k (t, c) <;> cases distAt s' k (t, c) <;> rfl

/-! ## Examples -/

/-- a record with an outlier: the filters have something to decide -/
def exSpike : Series := [(0, some 1), (1, some (11/10)), (2, some 9), (3, none), (4, some 1), (5, some (9/10)), (6, some 1),
  (7, some (11/10))]

example : hampelFilter exSpike 6 3 = [true, true, false, false, true, true, true, true] ∧
    hampelFilter exSpike 6 1000 = [true, true, true, false, true, true, true, true] := by decide +kernel
example : twoWayWindowFilter ((List.range 11).map fun n : Nat => ((n : Int), some (if n = 5 then 9 else 1 : ℚ))) 5 (3/100) =
    [true, true, true, true, true, false, true, true, true, true, true] := by decide +kernel
example : directionalTukeyFilter exSpike 5 (3/2) = directionalTukeyFilter (moved 100 exSpike) 5 (3/2) ∧
    (directionalTukeyFilter (backwards exSpike) 5 (3/2)).reverse = directionalTukeyFilter exSpike 5 (3/2) := by decide +kernel
/-- a centered window is half open, so this filter does distinguish the directions -/
example : hampelFilter (backwards [(0, some 1), (1, some 1), (2, some 5)]) 2 0 ≠
    (hampelFilter [(0, some 1), (1, some 1), (2, some 5)] 2 0).reverse := by decide +kernel
example : AtMost (.fin 100) (.fin 200) ∧ AtMost (.fin 1200) .pinf := by
  refine ⟨⟨_, _, rfl, rfl, ?_⟩, ⟨_, _, rfl, rfl, le_top⟩⟩
  exact_mod_cast (by norm_num : (100 : ℚ) ≤ 200)
example : insolationFilter [some 1, some 2, none, some 3] (1/2) = .ok [false, true, false, true] ∧
    insolationFilter [some 1, some 2, none, some 3] 0 = .ok [true, true, false, true] := by decide +kernel

end Verif
