import Verif.Lemmas.SrrFull
import Verif.Props.SrrTheil
import Verif.Props.SrrLevels

/-! # The SRR analysis of a system that soils linearly between cleanings -/

namespace Verif
open Spec

theorem cleanedLast_exists (D : List Nat) (i : Nat) : ∃ s, CleanedLast D s i := by
  induction i with
  | zero => exact ⟨0, le_refl _, Or.inl rfl, fun e _ h => h⟩
  | succ i ih =>
    by_cases hD : i + 1 ∈ D
    · exact ⟨i + 1, le_refl _, Or.inr hD, fun e _ h => h⟩
    · obtain ⟨s, h1, h2, h3⟩ := ih
      refine ⟨s, by omega, h2, fun e he hlt => ?_⟩
      have := h3 e he hlt
      rcases Nat.eq_or_lt_of_le (show i + 1 ≤ e by omega) with g | g
      · subst g; exact absurd he hD
      · exact g

theorem soilsLinearly_between {v : Nat → ℚ} {D : List Nat} {n : Nat} {m : ℚ} (h : SoilsLinearly v D n m) :
    SoilsBetween v D n m := by
  obtain ⟨rate, hb, hl⟩ := h
  intro i hi hD
  obtain ⟨s, h1, h2, h3⟩ := cleanedLast_exists D i
  have e1 := hl s i (by omega) ⟨h1, h2, h3⟩
  have e2 := hl s (i + 1) hi ⟨by omega, h2, fun e he hlt => by
    have := h3 e he hlt
    rcases Nat.eq_or_lt_of_le (show i + 1 ≤ e by omega) with g | g
    · subst g; exact absurd he hD
    · exact g⟩
  have := hb s
  push_cast at e2
  constructor <;> linarith

theorem same_run {rows : List SrrRow} (H : DailyRows rows) {D : List Nat}
    (hev : ∀ i (hi : i < rows.length), rows[i].event = true ↔ i ∈ D) {i j : Nat} (hij : i ≤ j) (hj : j < rows.length) :
    rows[j].run = rows[i].run ↔ ∀ e ∈ D, i < e → j < e := by
  induction j with
  | zero => obtain rfl : i = 0 := by omega
            simp
  | succ j ih =>
    rcases Nat.lt_or_eq_of_le hij with g | rfl
    · have h1 := H.run1 j hj
      have hm := H.run_mono (show i ≤ j by omega) (by omega)
      have ih' := ih (by omega) (by omega)
      by_cases he : j + 1 ∈ D
      · rw [if_pos ((hev _ hj).mpr he)] at h1
        constructor
        · intro h; omega
        · intro h
          have := h _ he g
          omega
      · rw [if_neg (fun h => he ((hev _ hj).mp h))] at h1
        rw [h1, Nat.add_zero, ih']
        constructor
        · intro h e hD hlt
          have := h e hD hlt
          rcases Nat.eq_or_lt_of_le (show j + 1 ≤ e by omega) with g | g
          · subst g; exact absurd hD he
          · exact g
        · intro h e hD hlt
          have := h e hD hlt
          omega
    · simp

theorem spaced_next {D : List Nat} {n L s : Nat} (h : Spaced D n L) (hL : 0 < L) (hs : s = 0 ∨ s ∈ D) :
    s + L ≤ n ∧ ∀ e ∈ D, s < e → s + L ≤ e := by
  rcases hs with rfl | hs
  · have h' := h
    unfold Spaced at h'
    rw [List.pairwise_cons] at h'
    exact ⟨h'.1 n (by simp), fun e he _ => by have := (spaced_bounds h he).1; omega⟩
  · exact ⟨(spaced_bounds h hs).2, fun e he hlt => spaced_apart h hs he hlt hL⟩

/-- one interval of the table: it starts with the record or a cleaning and lies on the line of its days -/
theorem interval_full {zs : List (ℚ × ℚ) → ℚ} (hz : ∀ p, 0 ≤ zs p) {o : ResultOpts} {rows : List SrrRow}
    (H : DailyRows rows) {D : List Nat} {n L : Nat} {v rate : Nat → ℚ} {m f : ℚ}
    (hn : rows.length = n) (hf : 0 < f) (hpos : ∀ i < n, 0 < v i)
    (hev : ∀ i (hi : i < rows.length), rows[i].event = true ↔ i ∈ D)
    (hpi : ∀ i (hi : i < rows.length), rows[i].piNorm = v i / f)
    (hde : ∀ i (hi : i < rows.length), -(m / f) ≤ rows[i].delta)
    (hr : ∀ i, 0 ≤ rate i ∧ rate i ≤ m)
    (hl : ∀ s i, i < n → CleanedLast D s i → v i = v s - rate s * ((i : ℚ) - s))
    (hsp : Spaced D n L) (hlen : 1 ≤ o.minIntervalLength) (hL : o.minIntervalLength < L)
    (ho : 0 < o.maxRelSlopeError) (hneg : m < o.maxNegativeStep * f)
    {i : Interval} (hi' : i ∈ intervalTable zs o rows) :
    ∃ s e, ∃ hs : s < rows.length, ∃ he : e < rows.length, s ≤ e ∧ (s = 0 ∨ s ∈ D) ∧ i.start = rows[s].t ∧
      i.stop = rows[e].t ∧ i.length = (e : Int) - s ∧ (e + 1 = n ∨ e + 1 ∈ D) ∧
      (∀ k (hk : k < rows.length), rows[k].run = i.run → CleanedLast D s k) ∧ CleanedLast D s e ∧ i.valid = true ∧
      i.slope = -(rate s / f) ∧ i.low = i.slope ∧ i.high = i.slope ∧ i.infStart = v s / f ∧ i.infEnd = v e / f := by
  obtain ⟨a, z, ha, hz', har, hzr, b1, b2, b3, -, -⟩ := table_bounds hi'
  obtain ⟨s, hs, rfl⟩ := List.getElem_of_mem ha
  obtain ⟨e, he, rfl⟩ := List.getElem_of_mem hz'
  have hcov := fun {d : SrrRow} (hd : d ∈ rows) => table_covers H hi' hd
  have hse : s ≤ e := by
    have := (hcov hz').mpr hzr
    rw [b1] at this
    by_contra hlt
    have := (H.t_lt he hs).mpr (by omega)
    omega
  have hsD : s = 0 ∨ s ∈ D := by
    rcases Nat.eq_zero_or_pos s with g | g
    · exact Or.inl g
    · right
      by_contra hno
      have hr1 := H.run1 (s - 1) (by omega)
      have e1 : rows[s - 1 + 1]'(by omega) = rows[s] := by congr 1; omega
      simp only [e1] at hr1
      rw [if_neg (fun h => hno ((hev s hs).mp h)), Nat.add_zero, har] at hr1
      have := (hcov (List.getElem_mem (show s - 1 < rows.length by omega))).mpr hr1.symm
      rw [b1] at this
      have := (H.t_lt (show s - 1 < rows.length by omega) hs).mpr (by omega)
      omega
  have hlast : ∀ k (hk : k < rows.length), rows[k].run = i.run → CleanedLast D s k := by
    intro k hk hrun
    have hsk : s ≤ k := by
      have := (hcov (List.getElem_mem hk)).mpr hrun
      rw [b1] at this
      by_contra hlt
      have := (H.t_lt hk hs).mpr (by omega)
      omega
    exact ⟨hsk, hsD, (same_run H hev hsk hk).mp (hrun.trans har.symm)⟩
  have hend : e + 1 = n ∨ e + 1 ∈ D := by
    by_contra hno
    push Not at hno
    have he1 : e + 1 < rows.length := by omega
    have hr1 := H.run1 e he1
    rw [if_neg (fun h => hno.2 ((hev _ he1).mp h)), hzr] at hr1
    have h3 := (hcov (List.getElem_mem he1)).mpr (by omega)
    rw [b2] at h3
    have := (H.t_lt he he1).mpr (by omega)
    omega
  have hday := H.day
  have hline : ∀ k (hk : k < rows.length), rows[k].run = i.run →
      rows[k].piNorm = (v s + rate s * s) / f + (-(rate s / f)) * rows[k].day := by
    intro k hk hrun
    rw [hpi k hk, hl s k (by omega) (hlast k hk hrun), hday k hk]
    field_simp
    ring
  have hpd : positiveDays rows i.run = rows.filter fun d => decide (d.run = i.run) := by
    unfold positiveDays
    apply List.filter_congr
    intro d hd
    obtain ⟨k, hk, rfl⟩ := List.getElem_of_mem hd
    have : 0 < rows[k].piNorm := by rw [hpi k hk]; exact div_pos (hpos k (by omega)) hf
    simp [this]
  have hcount : o.minIntervalLength < (positiveDays rows i.run).length := by
    obtain ⟨n1, n2⟩ := spaced_next hsp (by omega) hsD
    rw [hpd]
    have hsub : List.Sublist ((rows.drop s).take L) rows := (List.take_sublist _ _).trans (List.drop_sublist _ _)
    have hall : ((rows.drop s).take L).filter (fun d => decide (d.run = i.run)) = (rows.drop s).take L := by
      rw [List.filter_eq_self]
      intro d hd
      obtain ⟨k, hk, rfl⟩ := List.getElem_of_mem hd
      simp only [List.length_take, List.length_drop] at hk
      rw [List.getElem_take, List.getElem_drop]
      have := (same_run H hev (show s ≤ s + k by omega) (by omega)).mpr fun e he hlt => by
        have := n2 e he hlt; omega
      simp [this, har]
    have := (hsub.filter (fun d => decide (d.run = i.run))).length_le
    rw [hall, List.length_take, List.length_drop] at this
    omega
  have hmemk : ∀ d ∈ positiveDays rows i.run, ∃ k, ∃ hk : k < rows.length, d = rows[k] ∧ rows[k].run = i.run := by
    intro d hd
    rw [hpd] at hd
    obtain ⟨hd1, hd2⟩ := List.mem_filter.mp hd
    obtain ⟨k, hk, rfl⟩ := List.getElem_of_mem hd1
    exact ⟨k, hk, rfl, by simpa using hd2⟩
  have hmain := linear_row hz H hlen ho hi' (c := (v s + rate s * s) / f) (b := -(rate s / f))
    (by have := div_nonneg (hr s).1 hf.le; linarith)
    (by intro d hd
        obtain ⟨k, hk, rfl, hrun⟩ := hmemk d hd
        exact hline k hk hrun)
    hcount
    (by intro d hd
        obtain ⟨k, hk, rfl, -⟩ := hmemk d hd
        have h2 : m / f < o.maxNegativeStep := by rw [div_lt_iff₀ hf]; exact hneg
        have := hde k hk
        linarith)
  obtain ⟨m1, m2, m3, m4, a', z', ha', hz'', t1, t2, t3, t4⟩ := hmain
  obtain rfl := H.eq_of_t ha' ha (t1.trans b1)
  obtain rfl := H.eq_of_t hz'' hz' (t2.trans b2)
  rw [hday s hs] at t3
  rw [hday e he] at t4 b3
  rw [hday s hs] at b3
  refine ⟨s, e, hs, he, hse, hsD, b1, b2, b3, hend, hlast, hlast e he hzr, m1, m2, m3.trans m2.symm, m4.trans m2.symm, ?_, ?_⟩
  · rw [t3]; field_simp; ring
  · rw [t4, hl s e (by omega) (hlast e he hzr)]; field_simp; ring

/-! ## Monte Carlo -/

theorem drawSlopes_exact {tab : List Interval} (h : ∀ i ∈ tab, i.low = i.slope ∧ i.high = i.slope) (w : Nat → ℚ) :
    drawSlopes w tab = tab.map Interval.slope := by
  apply List.ext_getElem
  · simp [drawSlopes_length]
  · intro k h1 h2
    rw [drawSlopes_getElem w tab (by simpa using h2)]
    simp only [List.length_map] at h2
    obtain ⟨e1, e2⟩ := h _ (List.getElem_mem h2)
    rw [List.getElem_map, e1, e2]
    unfold uniform
    ring

theorem simulate_ones {m : SrrMethod} {w : Nat → ℚ} {l : List (Interval × ℚ)} (k : Nat)
    (h : ∀ x ∈ l, x.1.valid = true ∧ ∀ y, nextStart m y (1 + x.2 * x.1.length) x.1 = 1) :
    (simulate m w 1 k l).map Prod.fst = l.map fun _ => some 1 := by
  induction l generalizing k with
  | nil => rfl
  | cons x l ih =>
    obtain ⟨i, sl⟩ := x
    obtain ⟨hv, hn⟩ := h (i, sl) (by simp)
    simp only at hv hn
    unfold simulate
    rw [if_pos hv]
    simp only [List.map_cons]
    rw [hn, ih (k + 1) fun x hx => h x (by simp [hx])]

theorem fillInvalid_ones {α : Type} (l : List α) (xs : List ℚ) :
    fillInvalid (l.map fun _ => some 1) xs = l.map fun _ => some 1 := by
  induction l with
  | nil => simp [fillInvalid]
  | cons a l ih => simp only [List.map_cons, fillInvalid, ih]

theorem startLosses_ones {ord : List Nat → List Nat} {dr : SrrDraw} {tab : List Interval}
    (hs : ∀ i ∈ tab, i.low = i.slope ∧ i.high = i.slope)
    (h : ∀ i ∈ tab, i.valid = true ∧ ∀ y, nextStart .halfNorm y (1 + i.slope * i.length) i = 1) :
    startLosses ord .halfNorm dr tab = .ok (tab.map fun _ => some 1) := by
  unfold startLosses
  simp only
  rw [drawSlopes_exact hs]
  have hz : (tab.zip (tab.map Interval.slope)) = tab.map fun i => (i, i.slope) := by
    apply List.ext_getElem
    · simp
    · intro k h1 h2; simp
  have := simulate_ones (m := .halfNorm) (w := dr.recovery) (l := tab.zip (tab.map Interval.slope)) 0 (by
    intro x hx
    rw [hz] at hx
    obtain ⟨i, hi, rfl⟩ := List.mem_map.mp hx
    exact h i hi)
  rw [this, hz, List.map_map]
  exact congrArg Except.ok (fillInvalid_ones tab _)

theorem nextStart_full {i : Interval} (hrec : i.recovery = none ∨ i.recovery = some (1 - i.infEnd)) {e y : ℚ}
    (he : e = i.infEnd) (h0 : 0 ≤ e) : nextStart .halfNorm y e i = 1 := by
  unfold nextStart
  simp only
  have : clipQ 0 1 (e + i.recovery.getD 1) = 1 := by
    unfold clipQ
    rcases hrec with h | h
    · rw [h, Option.getD_none, max_eq_right (by linarith), min_eq_left (by linarith)]
    · rw [h, Option.getD_some, he]
      norm_num
  rw [this]
  simp

theorem mapM_const {α β : Type} {f : α → Except PyErr β} {l : List α} {b : β} (h : ∀ a ∈ l, f a = .ok b) :
    l.mapM f = .ok (l.map fun _ => b) := by
  induction l with
  | nil => rfl
  | cons a l ih =>
    rw [List.mapM_cons, h a (by simp), ih fun a ha => h a (by simp [ha])]
    rfl

theorem percentileE_const {l : List ℚ} {q c : ℚ} (h0 : 0 ≤ q) (h1 : q ≤ 100) (hne : l ≠ []) (hc : ∀ x ∈ l, x = c) :
    percentileE l q = .ok c := by
  have hq := quantile_const (q := q / 100) (by positivity) (by linarith) hne hc
  unfold percentileE
  rw [if_neg (by push Not; exact ⟨h0, h1⟩)]
  rw [quantile_some hne, Option.some.injEq] at hq
  cases l with
  | nil => exact absurd rfl hne
  | cons a l => exact congrArg Except.ok hq

theorem weightedRatio_some {l : List (Cell × ℚ)} (hs : ∀ x ∈ l, x.1 ≠ none) (h0 : (l.map Prod.snd).sum ≠ 0) :
    ∃ q, weightedRatio l = some q ∧ q * (l.map Prod.snd).sum = (l.map fun x => x.1.getD 0 * x.2).sum := by
  have hp : (l.filterMap fun x => x.1.map fun v => (v, x.2)) = l.map fun x => (x.1.getD 0, x.2) := by
    clear h0
    induction l with
    | nil => rfl
    | cons x l ih =>
      obtain ⟨c, w⟩ := x
      cases c with
      | none => exact absurd rfl (hs (none, w) (by simp))
      | some a => simp [ih fun x hx => hs x (by simp [hx])]
  have hex : ∃ q, weightedRatio l = some q := by
    unfold weightedRatio
    simp only [hp, List.map_map]
    rw [if_neg (by
      intro h
      apply h0
      rw [← h]
      congr 1)]
    exact ⟨_, rfl⟩
  obtain ⟨q, hq⟩ := hex
  exact ⟨q, hq, (weightedRatio_sum hq hs).2⟩

end Verif
