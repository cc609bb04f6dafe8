import Verif.Lemmas.SrrFit

/-! # Lemmas about the Monte Carlo step of the SRR analysis -/

namespace Verif

/-- what the Monte Carlo step needs to know about the interval table -/
structure SoilingTable (tab : List Interval) : Prop where
  low_le : ∀ i ∈ tab, i.low ≤ i.high
  high_le : ∀ i ∈ tab, i.high ≤ 0
  length_nonneg : ∀ i ∈ tab, 0 ≤ i.length
  invalid : ∀ i ∈ tab, i.valid = false → i.low = 0 ∧ i.high = 0
  runs : (tab.map Interval.run).Nodup

theorem soilingTable_of {zs : List (ℚ × ℚ) → ℚ} (hz : ∀ p, 0 ≤ zs p) {o : ResultOpts}
    {rows : List SrrRow} (H : DailyRows rows) : SoilingTable (intervalTable zs o rows) := by
  have key : ∀ i ∈ intervalTable zs o rows, i.low ≤ i.high ∧ i.high ≤ 0 ∧
      (i.valid = false → i.low = 0 ∧ i.high = 0) := by
    intro i hi
    obtain ⟨t1, t2, t3⟩ := table_row hz hi
    cases hv : i.valid with
    | false =>
      obtain ⟨-, h2, h3⟩ := t3 hv
      rw [h2, h3]; simp
    | true =>
      obtain ⟨e1, e2, e3, -⟩ := t2 hv
      have hV := t1.mp hv
      have hb := theil_bounds hz (posPoints rows i.run)
      rw [e2, e3]
      exact ⟨hb.1.trans (le_min hV.2.1 hb.2), min_le_left _ _, by simp⟩
  refine ⟨fun i hi => (key i hi).1, fun i hi => (key i hi).2.1, fun i hi => ?_, fun i hi => (key i hi).2.2,
    ?_⟩
  · obtain ⟨a, z, ha, hz', har, hzr, h1, h2, h3, hh, hl⟩ := table_bounds hi
    rw [h3]
    have hc := ((table_covers H hi hz').mpr hzr).1
    rw [h1] at hc
    have : ¬ z.day < a.day := by
      intro hlt
      have := (H.day_lt hz' ha).mpr hlt
      omega
    omega
  · rw [table_runs]
    exact (runList_sorted o.trim rows).imp fun h => h.ne

theorem uniform_le {a b u c : ℚ} (h0 : 0 ≤ u) (h1 : u ≤ 1) (ha : a ≤ c) (hb : b ≤ c) :
    uniform a b u ≤ c := by
  unfold uniform
  nlinarith

theorem uniform_ge {a b u c : ℚ} (h0 : 0 ≤ u) (h1 : u ≤ 1) (ha : c ≤ a) (hb : c ≤ b) :
    c ≤ uniform a b u := by
  unfold uniform
  nlinarith

theorem drawSlopes_length (u : Nat → ℚ) (tab : List Interval) : (drawSlopes u tab).length = tab.length := by
  simp [drawSlopes]

theorem drawSlopes_getElem (u : Nat → ℚ) (tab : List Interval) {k : Nat} (hk : k < tab.length) :
    (drawSlopes u tab)[k]'(by rw [drawSlopes_length]; exact hk) = uniform tab[k].low tab[k].high (u k) := by
  simp [drawSlopes]

theorem zip_drawSlopes {tab : List Interval} {u : Nat → ℚ} {x : Interval × ℚ}
    (h : x ∈ tab.zip (drawSlopes u tab)) : x.1 ∈ tab ∧ ∃ k, x.2 = uniform x.1.low x.1.high (u k) := by
  obtain ⟨k, hk, rfl⟩ := List.getElem_of_mem h
  have hk' : k < tab.length := by simp at hk; omega
  rw [List.getElem_zip]
  exact ⟨List.getElem_mem _, k, drawSlopes_getElem u tab hk'⟩

/-- the drawn slope lies between the bounds of its interval -/
theorem drawSlope_bounds {tab : List Interval} (T : SoilingTable tab) {u : Nat → ℚ}
    (hu : ∀ k, 0 ≤ u k ∧ u k ≤ 1) {x : Interval × ℚ} (h : x ∈ tab.zip (drawSlopes u tab)) :
    x.1.low ≤ x.2 ∧ x.2 ≤ x.1.high := by
  obtain ⟨hm, k, e⟩ := zip_drawSlopes h
  have hl := T.low_le _ hm
  rw [e]
  exact ⟨uniform_ge (hu k).1 (hu k).2 (le_refl _) hl, uniform_le (hu k).1 (hu k).2 hl (le_refl _)⟩

theorem nextStart_le {m : SrrMethod} {v e : ℚ} {i : Interval} (hv : m ≠ .halfNorm → 0 ≤ v ∧ v ≤ 1)
    (he : e ≤ 1) : nextStart m v e i ≤ 1 := by
  unfold nextStart
  cases m with
  | halfNorm => simp only; have := abs_nonneg (v * ((1 - clipQ 0 1 (e + i.recovery.getD 1)) / 3)); linarith
  | randomClean => exact uniform_le (hv (by simp)).1 (hv (by simp)).2 he (le_refl _)
  | perfectClean => exact uniform_le (hv (by simp)).1 (hv (by simp)).2 he (le_refl _)
  | other => exact uniform_le (hv (by simp)).1 (hv (by simp)).2 he (le_refl _)

/-- a cell is missing or at most 1 -/
def CellLe1 (c : Cell) : Prop := ∀ x, c = some x → x ≤ 1

theorem simulate_le {m : SrrMethod} {v : Nat → ℚ} (hv : m ≠ .halfNorm → ∀ k, 0 ≤ v k ∧ v k ≤ 1)
    {l : List (Interval × ℚ)} (hl : ∀ x ∈ l, x.2 ≤ 0 ∧ 0 ≤ x.1.length) {s : ℚ} (hs : s ≤ 1) (k : Nat) :
    ∀ y ∈ simulate m v s k l, CellLe1 y.1 ∧ CellLe1 y.2 := by
  induction l generalizing s k with
  | nil => intro y hy; simp [simulate] at hy
  | cons x l ih =>
    obtain ⟨i, sl⟩ := x
    intro y hy
    rw [simulate] at hy
    have hx := hl (i, sl) (by simp)
    have hl' : ∀ x ∈ l, x.2 ≤ 0 ∧ 0 ≤ x.1.length := fun x hx => hl x (by simp [hx])
    split_ifs at hy with hval
    · have he : s + sl * i.length ≤ 1 := by
        have h1 : sl * (i.length : ℚ) ≤ 0 :=
          mul_nonpos_of_nonpos_of_nonneg hx.1 (by exact_mod_cast hx.2)
        linarith
      rcases List.mem_cons.mp hy with rfl | hy
      · constructor
        · intro a ha; simp only [Option.some.injEq] at ha; linarith
        · intro a ha; simp only [Option.some.injEq] at ha; linarith
      · exact ih hl' (nextStart_le (fun hm => hv hm k) he) _ y hy
    · rcases List.mem_cons.mp hy with rfl | hy
      · exact ⟨fun a ha => by simp at ha, fun a ha => by simp at ha⟩
      · exact ih hl' hs _ y hy

theorem simulate_length (m : SrrMethod) (v : Nat → ℚ) (s : ℚ) (k : Nat) (l : List (Interval × ℚ)) :
    (simulate m v s k l).length = l.length := by
  induction l generalizing s k with
  | nil => rfl
  | cons x l ih => obtain ⟨i, sl⟩ := x; rw [simulate]; split_ifs <;> simp [ih]

/-- start and end are present exactly for the valid intervals -/
theorem simulate_isSome (m : SrrMethod) (v : Nat → ℚ) (s : ℚ) (k : Nat) (l : List (Interval × ℚ)) :
    (simulate m v s k l).map (fun y => y.1.isSome) = l.map (fun x => x.1.valid) ∧
    (simulate m v s k l).map (fun y => y.2.isSome) = l.map (fun x => x.1.valid) := by
  induction l generalizing s k with
  | nil => exact ⟨rfl, rfl⟩
  | cons x l ih =>
    obtain ⟨i, sl⟩ := x
    rw [simulate]
    split_ifs with h
    · have := ih (nextStart m (v k) (s + sl * i.length) i) (k + 1)
      simp [this.1, this.2, h]
    · have := ih s k
      simp [this.1, this.2, h]

theorem ffillFrom_mem {p : Cell} {l : List Cell} {x : Cell} (h : x ∈ ffillFrom p l) : x = p ∨ x ∈ l := by
  induction l generalizing p with
  | nil => simp [ffillFrom] at h
  | cons c l ih =>
    cases c with
    | some a =>
      rw [ffillFrom, List.mem_cons] at h
      rcases h with rfl | h
      · right; simp
      · rcases ih h with rfl | h
        · right; simp
        · right; simp [h]
    | none =>
      rw [ffillFrom, List.mem_cons] at h
      rcases h with rfl | h
      · left; rfl
      · rcases ih h with rfl | h
        · left; rfl
        · right; simp [h]

theorem bfill_mem {l : List Cell} {x : Cell} (h : x ∈ bfill l) : x = none ∨ x ∈ l := by
  induction l generalizing x with
  | nil => simp [bfill] at h
  | cons c l ih =>
    have hh : ∀ y, (bfill l).head?.join = some y → (some y) ∈ l := by
      intro y hy
      cases hb : bfill l with
      | nil => rw [hb] at hy; simp at hy
      | cons z k =>
        rw [hb] at hy
        simp only [List.head?_cons, Option.join_some] at hy
        subst hy
        rcases ih (x := some y) (by rw [hb]; simp) with h | h
        · simp at h
        · exact h
    cases c with
    | some a =>
      rw [bfill, List.mem_cons] at h
      rcases h with rfl | h
      · right; simp
      · rcases ih h with h | h
        · exact Or.inl h
        · right; simp [h]
    | none =>
      rw [bfill, List.mem_cons] at h
      rcases h with h | h
      · cases hx : x with
        | none => left; rfl
        | some y => right; rw [hx] at h; exact List.mem_cons_of_mem _ (hh y h.symm)
      · rcases ih h with h | h
        · exact Or.inl h
        · right; simp [h]

theorem invalidRows_le {tab : List Interval} {se : List (Cell × Cell)}
    (h : ∀ y ∈ se, CellLe1 y.1 ∧ CellLe1 y.2) {r : InvalidRow} (hr : r ∈ invalidRows tab se) :
    r.prevEnd ≤ 1 ∧ r.nextStart ≤ 1 := by
  unfold invalidRows at hr
  rw [List.mem_map] at hr
  obtain ⟨x, hx, rfl⟩ := hr
  have hz := List.of_mem_zip (show (x.1, x.2) ∈ _ from (List.mem_filter.mp hx).1)
  have hz2 := List.of_mem_zip (show (x.2.1, x.2.2) ∈ _ from hz.2)
  constructor
  · simp only
    cases hc : x.2.1 with
    | none => simp
    | some a =>
      simp only [Option.getD_some]
      rcases ffillFrom_mem hz2.1 with e | e
      · rw [hc] at e; simp at e
      · obtain ⟨y, hy, e2⟩ := List.mem_map.mp e
        exact (h y hy).2 a (by rw [e2, hc])
  · simp only
    cases hc : x.2.2 with
    | none => simp
    | some a =>
      simp only [Option.getD_some]
      rcases bfill_mem hz2.2 with e | e
      · rw [hc] at e; simp at e
      · obtain ⟨y, hy, e2⟩ := List.mem_map.mp e
        exact (h y hy).1 a (by rw [e2, hc])

/-- every level was drawn between the limits of the first row of some group -/
theorem mem_replaceLevels {ord : List Nat → List Nat} {u : Nat → ℚ} {inv : List InvalidRow} {y : ℚ}
    (h : y ∈ replaceLevels ord u inv) : ∃ r ∈ inv, ∃ k, y = uniform r.prevEnd r.nextStart (u k) := by
  unfold replaceLevels at h
  rw [List.mem_flatten] at h
  obtain ⟨L, hL, hy⟩ := h
  rw [List.mem_map] at hL
  obtain ⟨x, hx, rfl⟩ := hL
  simp only at hy
  cases hf : (inv.filter fun r => decide (r.group = x.1)) with
  | nil => rw [hf] at hy; simp at hy
  | cons r l =>
    rw [hf] at hy
    simp only at hy
    have hr : r ∈ inv := by
      have : r ∈ inv.filter fun r => decide (r.group = x.1) := by rw [hf]; simp
      exact (List.mem_filter.mp this).1
    exact ⟨r, hr, x.2, (List.eq_of_mem_replicate hy)⟩

theorem fillInvalid_le {l : List Cell} {xs : List ℚ} (hl : ∀ c ∈ l, CellLe1 c) (hx : ∀ x ∈ xs, x ≤ 1) :
    ∀ c ∈ fillInvalid l xs, CellLe1 c := by
  induction l generalizing xs with
  | nil => intro c hc; simp [fillInvalid] at hc
  | cons a l ih =>
    have hl' : ∀ c ∈ l, CellLe1 c := fun c hc => hl c (by simp [hc])
    intro c hc
    cases a with
    | some a =>
      rw [fillInvalid, List.mem_cons] at hc
      rcases hc with rfl | hc
      · exact hl _ (by simp)
      · exact ih hl' hx c hc
    | none =>
      cases xs with
      | nil =>
        rw [fillInvalid, List.mem_cons] at hc
        rcases hc with rfl | hc
        · intro x hx; simp at hx
        · exact ih hl' hx c hc
      | cons x xs =>
        rw [fillInvalid, List.mem_cons] at hc
        rcases hc with rfl | hc
        · intro y hy; simp only [Option.some.injEq] at hy; have := hx x (by simp); linarith
        · exact ih hl' (fun x hx' => hx x (by simp [hx'])) c hc

theorem fillInvalid_length (l : List Cell) (xs : List ℚ) : (fillInvalid l xs).length = l.length := by
  induction l generalizing xs with
  | nil => rfl
  | cons a l ih =>
    cases a with
    | some a => simp [fillInvalid, ih]
    | none => cases xs <;> simp [fillInvalid, ih]

/-- valid random numbers -/
structure ValidDraw (m : SrrMethod) (dr : SrrDraw) : Prop where
  slope : ∀ k, 0 ≤ dr.slope k ∧ dr.slope k ≤ 1
  recovery : m ≠ .halfNorm → ∀ k, 0 ≤ dr.recovery k ∧ dr.recovery k ≤ 1
  level : ∀ k, 0 ≤ dr.level k ∧ dr.level k ≤ 1

theorem startLosses_le {ord : List Nat → List Nat} {m : SrrMethod} {dr : SrrDraw} (hd : ValidDraw m dr)
    {tab : List Interval} (T : SoilingTable tab) {starts : List Cell}
    (h : startLosses ord m dr tab = .ok starts) :
    starts.length = tab.length ∧ ∀ c ∈ starts, CellLe1 c := by
  have main : ∀ se, se = simulate m dr.recovery 1 0 (tab.zip (drawSlopes dr.slope tab)) →
      (fillInvalid (se.map Prod.fst) (replaceLevels ord dr.level (invalidRows tab se))).length = tab.length ∧
      ∀ c ∈ fillInvalid (se.map Prod.fst) (replaceLevels ord dr.level (invalidRows tab se)), CellLe1 c := by
    intro se hse
    have hle : ∀ y ∈ se, CellLe1 y.1 ∧ CellLe1 y.2 := by
      rw [hse]
      apply simulate_le hd.recovery _ (le_refl _)
      intro x hx
      have hb := drawSlope_bounds T hd.slope hx
      have hm := (zip_drawSlopes hx).1
      exact ⟨hb.2.trans (T.high_le _ hm), T.length_nonneg _ hm⟩
    constructor
    · rw [fillInvalid_length, List.length_map, hse, simulate_length]
      simp [drawSlopes_length]
    · apply fillInvalid_le
      · intro c hc
        obtain ⟨y, hy, rfl⟩ := List.mem_map.mp hc
        exact (hle y hy).1
      · intro x hx
        obtain ⟨r, hr, k, rfl⟩ := mem_replaceLevels hx
        have := invalidRows_le hle hr
        exact uniform_le (hd.level k).1 (hd.level k).2 this.1 this.2
  unfold startLosses at h
  cases m with
  | other => simp at h
  | perfectClean =>
    simp only [Except.ok.injEq] at h
    subst h
    refine ⟨by simp, fun c hc => ?_⟩
    obtain ⟨i, -, rfl⟩ := List.mem_map.mp hc
    intro x hx
    simp only [Option.some.injEq] at hx
    linarith
  | halfNorm =>
    simp only [Except.ok.injEq] at h
    subst h
    exact main _ rfl
  | randomClean =>
    simp only [Except.ok.injEq] at h
    subst h
    exact main _ rfl

theorem dayLoss_some {tab : List Interval} {starts : List Cell} {slopes : List ℚ} {d : SrrRow} {x : ℚ}
    (h : dayLoss tab starts slopes d = some x) :
    ∃ k, ∃ hk : k < tab.length, ∃ h2 : k < slopes.length, ∃ s,
      starts[k]? = some (some s) ∧ tab[k].run = d.run ∧ x = s + daysSince tab[k] d * slopes[k] := by
  unfold dayLoss at h
  cases hf : ((tab.zip (starts.zip slopes)).find? fun x => decide (x.1.run = d.run)) with
  | none => rw [hf] at h; simp at h
  | some y =>
    obtain ⟨i, s, sl⟩ := y
    rw [hf] at h
    simp only at h
    have hm := List.mem_of_find?_eq_some hf
    have hp := List.find?_some hf
    simp only [decide_eq_true_eq] at hp
    obtain ⟨k, hk, e⟩ := List.getElem_of_mem hm
    simp only [List.length_zip] at hk
    rw [List.getElem_zip, List.getElem_zip, Prod.mk.injEq, Prod.mk.injEq] at e
    cases s with
    | none => simp at h
    | some s =>
      simp only [Option.map_some, Option.some.injEq] at h
      refine ⟨k, by omega, by omega, s, ?_, ?_, ?_⟩
      · rw [List.getElem?_eq_getElem (by omega), e.2.1]
      · rw [e.1]; exact hp
      · rw [e.1, e.2.2]; exact h.symm

theorem daysSince_nonneg {zs : List (ℚ × ℚ) → ℚ} {o : ResultOpts} {rows : List SrrRow} (H : DailyRows rows)
    {i : Interval} (hi : i ∈ intervalTable zs o rows) {d : SrrRow} (hd : d ∈ rows) (hr : i.run = d.run) :
    0 ≤ daysSince i d := by
  have := ((table_covers H hi hd).mpr hr.symm).1
  unfold daysSince
  exact Int.ediv_nonneg (by omega) dayNs_pos'.le

theorem analyzedDays_mem {tab : List Interval} {rows : List SrrRow} {x : SrrRow × Option Interval}
    (h : x ∈ analyzedDays tab rows) : x.1 ∈ rows ∧ x.2 = intervalOfDay tab x.1 := by
  unfold analyzedDays at h
  cases tab with
  | nil => simp at h
  | cons i l =>
    simp only [List.mem_map, List.mem_filter] at h
    obtain ⟨d, ⟨hd, -⟩, rfl⟩ := h
    exact ⟨hd, rfl⟩

theorem realization_ok {ord : List Nat → List Nat} {m : SrrMethod} {tab : List Interval}
    {days : List (SrrRow × Option Interval)} {dr : SrrDraw} {out : List (Int × Cell) × Cell}
    (h : realization ord m tab days dr = .ok out) :
    ∃ starts, startLosses ord m dr tab = .ok starts ∧
      out.1 = days.map (fun x => (x.1.t, dayLoss tab starts (drawSlopes dr.slope tab) x.1)) ∧
      out.2 = weightedRatio (days.map fun x => (dayLoss tab starts (drawSlopes dr.slope tab) x.1, x.1.insol)) := by
  unfold realization at h
  cases hs : startLosses ord m dr tab with
  | error e => rw [hs] at h; simp [Except.map] at h
  | ok starts =>
    rw [hs] at h
    simp only [Except.map, Except.ok.injEq] at h
    subst h
    exact ⟨starts, rfl, by simp [List.map_map, Function.comp_def], by simp [List.map_map, Function.comp_def]⟩

/-- the weighted mean lies between bounds of the values with non-negative weights -/
theorem weightedRatio_bounds {l : List (Cell × ℚ)} {v a b : ℚ} (h : weightedRatio l = some v)
    (hw : ∀ x ∈ l, 0 ≤ x.2) (hab : ∀ x ∈ l, ∀ y, x.1 = some y → a ≤ y ∧ y ≤ b) : a ≤ v ∧ v ≤ b := by
  unfold weightedRatio at h
  simp only at h
  set p := l.filterMap fun x => x.1.map fun v => (v, x.2) with hp
  split_ifs at h with h0
  simp only [Option.some.injEq] at h
  have hpm : ∀ y ∈ p, 0 ≤ y.2 ∧ a ≤ y.1 ∧ y.1 ≤ b := by
    intro y hy
    rw [hp, List.mem_filterMap] at hy
    obtain ⟨x, hx, e⟩ := hy
    cases hx1 : x.1 with
    | none => rw [hx1] at e; simp at e
    | some c =>
      rw [hx1] at e
      simp only [Option.map_some, Option.some.injEq] at e
      subst e
      exact ⟨hw x hx, hab x hx c hx1⟩
  clear_value p
  have key : a * (p.map Prod.snd).sum ≤ (p.map fun x => x.1 * x.2).sum ∧
      (p.map fun x => x.1 * x.2).sum ≤ b * (p.map Prod.snd).sum ∧ 0 ≤ (p.map Prod.snd).sum := by
    clear h h0 hp
    induction p with
    | nil => simp
    | cons y q ih =>
      have := hpm y (by simp)
      obtain ⟨i1, i2, i3⟩ := ih fun z hz => hpm z (by simp [hz])
      simp only [List.map_cons, List.sum_cons]
      refine ⟨?_, ?_, by linarith⟩ <;> nlinarith
  have hpos : 0 < (p.map Prod.snd).sum := lt_of_le_of_ne key.2.2 (Ne.symm h0)
  rw [← h]
  exact ⟨(le_div_iff₀ hpos).mpr key.1, (div_le_iff₀ hpos).mpr key.2.1⟩

theorem calcMonte_ok {ord : List Nat → List Nat} {m : SrrMethod} {tab : List Interval}
    {days : List (SrrRow × Option Interval)} {draws : List SrrDraw}
    {mc : List (List (Int × Cell) × Cell)} (h : calcMonte ord m tab days draws = .ok mc) :
    List.Forall₂ (fun dr out => realization ord m tab days dr = .ok out) draws mc := by
  unfold calcMonte at h
  induction draws generalizing mc with
  | nil => simp only [List.mapM_nil] at h; cases h; exact List.Forall₂.nil
  | cons dr l ih =>
    rw [List.mapM_cons] at h
    cases hr : realization ord m tab days dr with
    | error e => rw [hr] at h; exact absurd h (by simp [bind, Except.bind])
    | ok out =>
      rw [hr] at h
      simp only [bind, Except.bind] at h
      cases hl : l.mapM (realization ord m tab days) with
      | error e => rw [hl] at h; exact absurd h (by simp)
      | ok outs =>
        rw [hl] at h
        simp only [pure, Except.pure, Except.ok.injEq] at h
        subst h
        exact List.Forall₂.cons hr (ih hl)

/-- the stages of a successful analysis -/
theorem soilingSrr_ok {ord : List Nat → List Nat} {zs : List (ℚ × ℚ) → ℚ} {o : DailyOpts} {ro : ResultOpts}
    {m : SrrMethod} {exceed conf : ℚ} {draws : List SrrDraw} {pm insol : Series} {precip : Option Series}
    {out : SrrOut} (h : soilingSrr ord zs o ro m exceed conf draws pm insol precip = .ok out) :
    srrInit pm insol precip = .ok () ∧ ∃ d, calcDailyDf o pm insol precip = .ok d ∧
      ∃ r, calcResultDf zs ro d.2 = .ok r ∧ ∃ mc, calcMonte ord m r.1 r.2 draws = .ok mc ∧
        srrSummary exceed conf d.1 r.1 r.2 mc = .ok out := by
  unfold soilingSrr at h
  cases h1 : srrInit pm insol precip with
  | error e => rw [h1] at h; simp [Except.bind] at h
  | ok u =>
    cases h2 : calcDailyDf o pm insol precip with
    | error e => rw [h1, h2] at h; simp [Except.bind] at h
    | ok d =>
      rw [h1, h2] at h
      simp only [Except.bind] at h
      cases h3 : calcResultDf zs ro d.2 with
      | error e => rw [h3] at h; simp at h
      | ok r =>
        rw [h3] at h
        simp only at h
        cases h4 : calcMonte ord m r.1 r.2 draws with
        | error e => rw [h4] at h; simp at h
        | ok mc =>
          rw [h4] at h
          simp only at h
          exact ⟨rfl, d, rfl, r, h3, mc, h4, h⟩

theorem srrSummary_ok {exceed conf : ℚ} {renorm : Cell} {tab : List Interval}
    {days : List (SrrRow × Option Interval)} {mc : List (List (Int × Cell) × Cell)} {out : SrrOut}
    (h : srrSummary exceed conf renorm tab days mc = .ok out) :
    (∀ x ∈ mc, ∃ v, x.2 = some v) ∧
    percentileE (valids (mc.map Prod.snd)) 50 = .ok out.ratio ∧
    percentileE (valids (mc.map Prod.snd)) (50 - conf / 2) = .ok out.low ∧
    percentileE (valids (mc.map Prod.snd)) (50 + conf / 2) = .ok out.high ∧
    percentileE (valids (mc.map Prod.snd)) (100 - exceed) = .ok out.exceedance ∧
    out.renorm = renorm ∧ out.profiles = mc.map Prod.fst ∧ out.table = tab ∧
    out.perfect = (days.filter fun x => (x.2.map Interval.valid).getD false).map
            fun x => (x.1.t, lossPerfectClean x) := by
  unfold srrSummary at h
  split_ifs at h with hall
  simp only [Bool.not_eq_false, List.all_eq_true] at hall
  refine ⟨fun x hx => Option.isSome_iff_exists.mp (hall x hx), ?_⟩
  simp only at h
  cases h1 : percentileE (valids (mc.map Prod.snd)) 50 with
  | error e => rw [h1] at h; simp [Except.bind] at h
  | ok a =>
    cases h2 : percentileE (valids (mc.map Prod.snd)) (50 - conf / 2) with
    | error e => rw [h1, h2] at h; simp [Except.bind] at h
    | ok b =>
      cases h3 : percentileE (valids (mc.map Prod.snd)) (50 + conf / 2) with
      | error e => rw [h1, h2, h3] at h; simp [Except.bind] at h
      | ok c =>
        cases h4 : percentileE (valids (mc.map Prod.snd)) (100 - exceed) with
        | error e => rw [h1, h2, h3, h4] at h; simp [Except.bind] at h
        | ok f =>
          rw [h1, h2, h3, h4] at h
          simp only [Except.bind, Except.ok.injEq] at h
          subst h
          exact ⟨rfl, rfl, rfl, rfl, rfl, rfl, rfl, rfl⟩

end Verif
