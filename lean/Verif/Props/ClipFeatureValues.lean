import Verif.Props.ClipFeatures
import Verif.Lemmas.Filtering

/-! # Property C94: what the XGBoost clipping model is asked -/

namespace Verif.Clip
open Verif Verif.Clip.Spec

theorem mapM_range {f : Nat → Option ℚ} {l : List Nat} {r : List ℚ} :
    l.mapM f = some r ↔ (∀ j ∈ l, (f j).isSome) ∧ r = l.map fun j => (f j).getD 0 := by
  induction l generalizing r with
  | nil =>
    rw [List.mapM_nil]
    constructor
    · intro h; cases h; exact ⟨fun j hj => absurd hj (by simp), rfl⟩
    · rintro ⟨_, rfl⟩; rfl
  | cons a l ih =>
    rw [List.mapM_cons]
    cases ha : f a with
    | none => simp [ha]
    | some b =>
      cases hl : l.mapM f with
      | none =>
        have := ih (r := l.map fun j => (f j).getD 0)
        rw [hl] at this
        simp only [reduceCtorEq, and_true, false_iff] at this
        simp only [Option.bind_eq_bind, Option.bind_some, Option.bind_none, reduceCtorEq, false_iff]
        intro h
        exact this fun j hj => h.1 j (by simp [hj])
      | some r' =>
        obtain ⟨h1, h2⟩ := ih.mp hl
        simp only [Option.bind_eq_bind, Option.bind_some, Option.pure_def, Option.some.injEq,
          List.map_cons, ha, Option.getD_some, ← h2]
        constructor
        · rintro rfl
          refine ⟨?_, rfl⟩
          intro j hj
          rcases List.mem_cons.mp hj with rfl | hj
          · rw [ha]; rfl
          · exact h1 j hj
        · rintro ⟨_, rfl⟩; rfl

theorem rollC_iff {w : Nat} (hw : 0 < w) {g : List ℚ → Cell} {c : Col} {i : Nat} {y : ℚ} :
    rollC w g c i = some y ↔ w / 2 ≤ i ∧ (∀ j < w, (c (i - w / 2 + j)).isSome) ∧
      g ((List.range w).map fun j => (c (i - w / 2 + j)).getD 0) = some y := by
  unfold rollC
  by_cases h : w ≤ i + 1 + (w - 1) / 2
  · have h1 : w / 2 ≤ i := by omega
    have h2 : i + 1 + (w - 1) / 2 - w = i - w / 2 := by omega
    rw [if_pos h, h2]
    constructor
    · intro e
      obtain ⟨r, hr, hy⟩ := Option.bind_eq_some_iff.mp e
      obtain ⟨h3, rfl⟩ := mapM_range.mp hr
      exact ⟨h1, fun j hj => h3 j (List.mem_range.mpr hj), hy⟩
    · rintro ⟨_, h3, hy⟩
      rw [mapM_range.mpr ⟨fun j hj => h3 j (List.mem_range.mp hj), rfl⟩]
      exact hy
  · rw [if_neg h]
    constructor
    · intro e; exact absurd e (by simp)
    · rintro ⟨h1, _⟩; omega

theorem diffC_iff {c : Col} {i : Nat} {d : ℚ} :
    diffC c i = some d ↔ 0 < i ∧ ∃ a b, c i = some a ∧ c (i - 1) = some b ∧ d = a - b := by
  unfold diffC
  by_cases h : i = 0
  · rw [if_pos h]; simp [h]
  · rw [if_neg h]
    cases c i with
    | none => simp [cellOp]
    | some a =>
      cases c (i - 1) with
      | none => simp [cellOp]
      | some b =>
        simp only [cellOp, Option.some.injEq]
        constructor
        · intro e; exact ⟨by omega, a, b, rfl, rfl, e.symm⟩
        · rintro ⟨_, a', b', rfl, rfl, e⟩; exact e.symm

theorem valids_window {l : List Cell} {i w : Nat} :
    (valids ((l.drop i).take w)).length = w ↔ ∀ j < w, (colOf l (i + j)).isSome := by
  constructor
  · intro h j hj
    have h1 : (valids ((l.drop i).take w)).length ≤ ((l.drop i).take w).length :=
      List.length_filterMap_le _ _
    have h2 : ((l.drop i).take w).length ≤ w := by rw [List.length_take]; omega
    have h3 : ((l.drop i).take w).length = w := by omega
    have h4 : (valids ((l.drop i).take w)).length = ((l.drop i).take w).length := by omega
    unfold valids at h4
    rw [List.filterMap_length_eq_length] at h4
    have h5 : j < ((l.drop i).take w).length := by omega
    have h6 := h4 _ (List.getElem_mem h5)
    have h7 : l[i + j]? = some (((l.drop i).take w)[j]) := by
      rw [← List.getElem?_eq_getElem h5, List.getElem?_take, if_pos hj, List.getElem?_drop]
    unfold colOf
    rw [h7]
    simpa using h6
  · intro h
    have e : (l.drop i).take w = (List.range w).map fun j => some ((colOf l (i + j)).getD 0) := by
      apply List.ext_getElem?
      intro n
      rw [List.getElem?_take, List.getElem?_map]
      by_cases hn : n < w
      · rw [if_pos hn, List.getElem?_drop, List.getElem?_range hn]
        have := h n hn
        unfold colOf at this ⊢
        cases hx : l[i + n]? with
        | none => rw [hx] at this; simp at this
        | some v =>
          rw [hx] at this
          cases v with
          | none => simp at this
          | some z => simp [hx]
      · rw [if_neg hn]
        simp [hn]
    rw [e]
    unfold valids
    rw [List.filterMap_map]
    simp

theorem valids_window_eq {l : List Cell} {i w : Nat} (h : ∀ j < w, (colOf l (i + j)).isSome) :
    valids ((l.drop i).take w) = (List.range w).map fun j => (colOf l (i + j)).getD 0 := by
  have e : (l.drop i).take w = (List.range w).map fun j => some ((colOf l (i + j)).getD 0) := by
    apply List.ext_getElem?
    intro n
    rw [List.getElem?_take, List.getElem?_map]
    by_cases hn : n < w
    · rw [if_pos hn, List.getElem?_drop, List.getElem?_range hn]
      have := h n hn
      unfold colOf at this ⊢
      cases hx : l[i + n]? with
      | none => rw [hx] at this; simp at this
      | some v =>
        rw [hx] at this
        cases v with
        | none => simp at this
        | some z => simp [hx]
    · rw [if_neg hn]
      simp [hn]
  rw [e]
  unfold valids
  rw [List.filterMap_map]
  have : (id ∘ fun j => some ((colOf l (i + j)).getD 0)) =
    fun j => some ((colOf l (i + j)).getD 0) := rfl
  rw [this, List.filterMap_eq_map']

theorem colOf_isSome_lt {l : List Cell} {k : Nat} (h : (colOf l k).isSome) : k < l.length := by
  by_contra hc
  unfold colOf at h
  rw [List.getElem?_eq_none_iff.mpr (by omega)] at h
  simp at h

theorem rollingRange_iff {l : List Cell} {w i : Nat} (hw : 0 < w) {y : ℚ} :
    colOf (rollingRange w l) i = some y ↔ (∀ j < w, (colOf l (i + j)).isSome) ∧
      rangePct ((List.range w).map fun j => (colOf l (i + j)).getD 0) = some y := by
  constructor
  · intro h
    have hi : i < l.length := by
      have := colOf_isSome_lt (by rw [h]; rfl : (colOf (rollingRange w l) i).isSome)
      simpa [rollingRange] using this
    unfold colOf rollingRange at h
    rw [List.getElem?_map, List.getElem?_range hi] at h
    simp only [Option.map_some, Option.join_some] at h
    split_ifs at h with hc
    have := valids_window.mp hc
    exact ⟨this, by rwa [valids_window_eq this] at h⟩
  · rintro ⟨h1, h2⟩
    have hi : i < l.length := colOf_isSome_lt (h1 0 hw)
    conv_lhs => unfold colOf rollingRange
    rw [List.getElem?_map, List.getElem?_range hi]
    simp only [Option.map_some, Option.join_some]
    rw [if_pos (valids_window.mpr h1), valids_window_eq h1, h2]

theorem rollWindow_eq (n : Int) : rollWindow n = windowRows n := by
  unfold rollWindow windowRows
  split_ifs <;> first | rfl | omega

theorem windowRows_ge (n : Int) : 2 ≤ windowRows n := by
  unfold windowRows; split_ifs <;> omega

theorem mem_valids_values {g : Series} {z : ℚ} : z ∈ valids g.values ↔ ∃ u, (u, some z) ∈ g := by
  unfold valids Series.values
  rw [List.mem_filterMap]
  constructor
  · rintro ⟨v, hv, e⟩
    obtain ⟨r, hr, rfl⟩ := List.mem_map.mp hv
    exact ⟨r.1, by rw [← (by simpa using e : r.2 = some z)]; exact hr⟩
  · rintro ⟨u, hu⟩
    exact ⟨some z, List.mem_map.mpr ⟨_, hu, rfl⟩, rfl⟩

/-- the scaled column is the scale of the specification -/
theorem scaledAt_iff {g : Series} {k : Nat} {y : ℚ} :
    colOf (scaledS g).values k = some y ↔ ScaledAt g k y := by
  have hcol : colOf (scaledS g).values k = (g[k]?).bind fun r => norm1 g.values r.2 := by
    unfold colOf scaledS Series.values
    rw [List.map_map, List.getElem?_map]
    cases g[k]? <;> rfl
  rw [hcol]
  unfold ScaledAt norm1
  constructor
  · intro h
    obtain ⟨⟨t, v⟩, h1, h2⟩ := Option.bind_eq_some_iff.mp h
    simp only at h2
    cases hmx : (valids g.values).max? with
    | none => rw [hmx] at h2; simp at h2
    | some mx =>
      cases hmn : (valids g.values).min? with
      | none => rw [hmx, hmn] at h2; simp at h2
      | some mn =>
        rw [hmx, hmn] at h2
        simp only at h2
        split_ifs at h2 with hne
        cases v with
        | none => simp at h2
        | some x =>
          simp only [Option.map_some, Option.some.injEq] at h2
          obtain ⟨a1, a2⟩ := List.max?_eq_some_iff.mp hmx
          obtain ⟨b1, b2⟩ := List.min?_eq_some_iff.mp hmn
          exact ⟨t, x, mn, mx, h1, ⟨mem_valids_values.mp b1, fun z hz => b2 z (mem_valids_values.mpr hz)⟩,
            ⟨mem_valids_values.mp a1, fun z hz => a2 z (mem_valids_values.mpr hz)⟩,
            lt_of_le_of_ne (b2 mx a1) (Ne.symm hne), h2.symm⟩
  · rintro ⟨t, x, mn, mx, h1, ⟨b1, b2⟩, ⟨a1, a2⟩, hlt, rfl⟩
    have hmx : (valids g.values).max? = some mx := List.max?_eq_some_iff.mpr
      ⟨mem_valids_values.mpr a1, fun z hz => a2 (mem_valids_values.mp hz)⟩
    have hmn : (valids g.values).min? = some mn := List.min?_eq_some_iff.mpr
      ⟨mem_valids_values.mpr b1, fun z hz => b2 (mem_valids_values.mp hz)⟩
    rw [h1, Option.bind_some, hmx, hmn]
    simp only
    rw [if_neg hlt.ne']
    rfl

theorem sum_telescope (y : Nat → ℚ) (a w : Nat) :
    ((List.range w).map fun j => y (a + 1 + j) - y (a + j)).sum = y (a + w) - y a := by
  induction w with
  | zero => simp
  | succ w ih =>
    rw [List.range_succ, List.map_append, List.sum_append, ih]
    simp only [List.map_cons, List.map_nil, List.sum_cons, List.sum_nil]
    rw [show a + 1 + w = a + (w + 1) by ring]
    ring

theorem sum_shift (y : Nat → ℚ) (a w : Nat) :
    ((List.range w).map fun j => y (a + 1 + j)).sum - ((List.range w).map fun j => y (a + j)).sum =
      y (a + w) - y a := by
  rw [← sum_telescope]
  induction w with
  | zero => simp
  | succ w ih =>
    simp only [List.range_succ, List.map_append, List.sum_append, List.map_cons, List.map_nil,
      List.sum_cons, List.sum_nil]
    linarith

theorem mean_range {w : Nat} (hw : 0 < w) (f : Nat → ℚ) :
    mean ((List.range w).map f) = some (((List.range w).map f).sum / w) := by
  obtain ⟨v, rfl⟩ : ∃ v, w = v + 1 := ⟨w - 1, by omega⟩
  rw [List.range_succ_eq_map]
  simp only [List.map_cons, mean]
  simp

theorem variance_range {w : Nat} (hw : 2 ≤ w) (f : Nat → ℚ) :
    variance ((List.range w).map f) = some (((List.range w).map fun j =>
      (f j - ((List.range w).map f).sum / w) ^ 2).sum / ((w : ℚ) - 1)) := by
  unfold variance
  rw [mean_range (by omega)]
  simp only [List.length_map, List.length_range]
  rw [if_neg (by omega), List.map_map]
  rfl

theorem mem_rangeMap {w : Nat} {f : Nat → ℚ} {z : ℚ} :
    z ∈ (List.range w).map f ↔ ∃ j < w, z = f j := by
  rw [List.mem_map]
  constructor
  · rintro ⟨j, hj, rfl⟩; exact ⟨j, List.mem_range.mp hj, rfl⟩
  · rintro ⟨j, hj, rfl⟩; exact ⟨j, List.mem_range.mpr hj, rfl⟩

theorem max_range_iff {w : Nat} {f : Nat → ℚ} {m : ℚ} :
    ((List.range w).map f).max? = some m ↔ IsGreatest {z | ∃ j < w, z = f j} m := by
  rw [List.max?_eq_some_iff]
  constructor
  · rintro ⟨a, b⟩; exact ⟨mem_rangeMap.mp a, fun z hz => b z (mem_rangeMap.mpr hz)⟩
  · rintro ⟨a, b⟩; exact ⟨mem_rangeMap.mpr a, fun z hz => b (mem_rangeMap.mp hz)⟩

theorem min_range_iff {w : Nat} {f : Nat → ℚ} {m : ℚ} :
    ((List.range w).map f).min? = some m ↔ IsLeast {z | ∃ j < w, z = f j} m := by
  rw [List.min?_eq_some_iff]
  constructor
  · rintro ⟨a, b⟩; exact ⟨mem_rangeMap.mp a, fun z hz => b z (mem_rangeMap.mpr hz)⟩
  · rintro ⟨a, b⟩; exact ⟨mem_rangeMap.mpr a, fun z hz => b (mem_rangeMap.mp hz)⟩

/-- all readings the inputs of row `i` depend on are there, apart from the daily maximum -/
def CompleteRow (g : Series) (minutes : Int) (y : Nat → ℚ) (i : Nat) : Prop :=
  windowRows minutes / 2 < i ∧
    ∀ k, i - windowRows minutes / 2 - 1 ≤ k → k < i + windowRows minutes → ScaledAt g k (y k)

/-- the scaled column -/
def scaledCol (g : Series) : Col := colOf (scaledS g).values

theorem slope_getD {c : Col} {k : Nat} (h : (diffC c k).isSome) :
    (diffC c k).getD 0 = slope (fun k => (c k).getD 0) k := by
  obtain ⟨d, hd⟩ := Option.isSome_iff_exists.mp h
  obtain ⟨_, a, b, ha, hb, rfl⟩ := diffC_iff.mp hd
  rw [hd]
  simp [slope, ha, hb]

theorem isSome_of_diff {c : Col} {k : Nat} (h : (diffC c k).isSome) :
    (c k).isSome ∧ (c (k - 1)).isSome := by
  obtain ⟨d, hd⟩ := Option.isSome_iff_exists.mp h
  obtain ⟨_, a, b, ha, hb, rfl⟩ := diffC_iff.mp hd
  rw [ha, hb]
  exact ⟨rfl, rfl⟩

theorem slopes_eq {c : Col} {a w : Nat} (h : ∀ j < w, (diffC c (a + j)).isSome) :
    ((List.range w).map fun j => (diffC c (a + j)).getD 0) =
      (List.range w).map fun j => slope (fun k => (c k).getD 0) (a + j) := by
  apply List.map_congr_left
  intro j hj
  exact slope_getD (h j (List.mem_range.mp hj))

theorem sum_slopes (y : Nat → ℚ) (a w : Nat) :
    ((List.range w).map fun j => slope y (a + 1 + j)).sum = y (a + w) - y a := by
  rw [← sum_telescope]
  congr 1
  apply List.map_congr_left
  intro j _
  unfold slope
  rw [show a + 1 + j - 1 = a + j by omega]

theorem rangePct_iff {w : Nat} {f : Nat → ℚ} (hf : ∀ j < w, 0 ≤ f j) {d : ℚ} :
    rangePct ((List.range w).map f) = some d ↔
      ∃ mx mn, IsGreatest {z | ∃ j < w, z = f j} mx ∧ IsLeast {z | ∃ j < w, z = f j} mn ∧ 0 < mx ∧
        d = 100 * (mx - mn) / ((mx + mn) / 2) := by
  unfold rangePct
  constructor
  · intro h
    cases hmx : ((List.range w).map f).max? with
    | none => rw [hmx] at h; simp at h
    | some mx =>
      cases hmn : ((List.range w).map f).min? with
      | none => rw [hmx, hmn] at h; simp at h
      | some mn =>
        rw [hmx, hmn] at h
        simp only at h
        split_ifs at h with h0
        rw [Option.some.injEq] at h
        have g1 := max_range_iff.mp hmx
        have g2 := min_range_iff.mp hmn
        obtain ⟨j1, hj1, e1⟩ := g1.1
        obtain ⟨j2, hj2, e2⟩ := g2.1
        have p1 := hf j1 hj1
        have p2 := hf j2 hj2
        have p3 : mn ≤ mx := g2.2 g1.1
        refine ⟨mx, mn, g1, g2, ?_, by rw [← h]; ring⟩
        rw [← e1] at p1
        rw [← e2] at p2
        rcases p1.eq_or_lt with e | e
        · exact absurd (by linarith) h0
        · exact e
  · rintro ⟨mx, mn, g1, g2, hp, rfl⟩
    rw [max_range_iff.mpr g1, min_range_iff.mpr g2]
    obtain ⟨j2, hj2, e2⟩ := g2.1
    have p2 := hf j2 hj2
    rw [← e2] at p2
    simp only
    rw [if_neg (by linarith), Option.some.injEq]
    ring

theorem dailyMax_iff {g : Series} {t : Int} {d : ℚ} :
    dailyMax (scaledS g) t = some d ↔
      IsGreatest {z | ∃ k u v, g[k]? = some (u, v) ∧ u / 86400000000000 = t / 86400000000000 ∧
        ScaledAt g k z} d := by
  have hmem : ∀ z, z ∈ valids (onDay (scaledS g) (dayOf t)) ↔
      ∃ k u v, g[k]? = some (u, v) ∧ u / 86400000000000 = t / 86400000000000 ∧ ScaledAt g k z := by
    intro z
    rw [mem_onDay]
    constructor
    · rintro ⟨u, hu, hd⟩
      obtain ⟨k, hk⟩ := List.mem_iff_getElem?.mp hu
      have hk' := hk
      unfold scaledS at hk'
      rw [List.getElem?_map] at hk'
      obtain ⟨⟨u', v⟩, h1, h2⟩ := Option.map_eq_some_iff.mp hk'
      rw [Prod.mk.injEq] at h2
      obtain ⟨rfl, _⟩ := h2
      refine ⟨k, u', v, h1, hd, scaledAt_iff.mp ?_⟩
      unfold colOf Series.values
      rw [List.getElem?_map, hk]
      rfl
    · rintro ⟨k, u, v, h1, hd, h2⟩
      refine ⟨u, ?_, hd⟩
      have h3 := scaledAt_iff.mpr h2
      have hk : (scaledS g)[k]? = some (u, norm1 g.values v) := by
        unfold scaledS
        rw [List.getElem?_map, h1]
        rfl
      unfold colOf Series.values at h3
      rw [List.getElem?_map, hk] at h3
      have h4 : norm1 g.values v = some z := by simpa using h3
      rw [h4] at hk
      exact List.mem_of_getElem? hk
  unfold dailyMax
  rw [List.max?_eq_some_iff]
  constructor
  · rintro ⟨a, b⟩; exact ⟨(hmem _).mp a, fun z hz => b z ((hmem z).mpr hz)⟩
  · rintro ⟨a, b⟩; exact ⟨(hmem _).mpr a, fun z hz => b ((hmem z).mp hz)⟩

theorem featureRow_sound {g : Series} {n : Int} {m : String} {i : Nat} {t : Int} {x : Features}
    (h : featureRow (scaledS g) n (if n < 5 then 5 else n) m i t = some x) :
    CompleteRow g n (fun k => (scaledCol g k).getD 0) i ∧
      Describes g n m (fun k => (scaledCol g k).getD 0) i t x := by
  unfold featureRow at h
  simp only at h
  rw [rollWindow_eq] at h
  change ((diffC (scaledCol g) i).bind _ = _) at h
  have hw2 := windowRows_ge n
  unfold CompleteRow
  generalize hwd : windowRows n = w at h hw2
  obtain ⟨a1, e1, h⟩ := Option.bind_eq_some_iff.mp h
  obtain ⟨a2, e2, h⟩ := Option.bind_eq_some_iff.mp h
  obtain ⟨a3, e3, h⟩ := Option.bind_eq_some_iff.mp h
  obtain ⟨a4, e4, h⟩ := Option.bind_eq_some_iff.mp h
  obtain ⟨a5, e5, h⟩ := Option.bind_eq_some_iff.mp h
  obtain ⟨a6, e6, h⟩ := Option.bind_eq_some_iff.mp h
  obtain ⟨a7, e7, h⟩ := Option.bind_eq_some_iff.mp h
  obtain ⟨a8, e8, h⟩ := Option.bind_eq_some_iff.mp h
  obtain ⟨a9, e9, h⟩ := Option.bind_eq_some_iff.mp h
  obtain ⟨a10, e10, h⟩ := Option.bind_eq_some_iff.mp h
  obtain ⟨a11, e11, h⟩ := Option.bind_eq_some_iff.mp h
  obtain ⟨a12, e12, h⟩ := Option.bind_eq_some_iff.mp h
  obtain ⟨a13, e13, h⟩ := Option.bind_eq_some_iff.mp h
  obtain ⟨a14, e14, h⟩ := Option.bind_eq_some_iff.mp h
  rw [Option.some.injEq] at h
  subst h
  have hw : 0 < w := by omega
  change scaledCol g i = some a5 at e5
  change diffC (shiftC (scaledCol g)) i = some a2 at e2
  change diffC (rollC w mean (scaledCol g)) i = some a3 at e3
  change diffC (shiftC (rollC w mean (scaledCol g))) i = some a4 at e4
  change rollC w mean (scaledCol g) i = some a6 at e6
  change rollC w variance (diffC (scaledCol g)) i = some a10 at e10
  change rollC w mean (diffC (scaledCol g)) i = some a11 at e11
  change rollC w median (diffC (scaledCol g)) i = some a12 at e12
  change rollC w List.min? (diffC (scaledCol g)) i = some a13 at e13
  change rollC w List.max? (diffC (scaledCol g)) i = some a14 at e14
  set y : Nat → ℚ := fun k => (scaledCol g k).getD 0 with hy
  have hget : ∀ {k : Nat} {z : ℚ}, scaledCol g k = some z → y k = z := by
    intro k z hk; simp [hy, hk]
  obtain ⟨hi0, p1, q1, hp1, hq1, rfl⟩ := diffC_iff.mp e1
  obtain ⟨_, p2, q2, hp2, hq2, rfl⟩ := diffC_iff.mp e2
  obtain ⟨_, p3, q3, hp3, hq3, rfl⟩ := diffC_iff.mp e3
  obtain ⟨_, p4, q4, hp4, hq4, rfl⟩ := diffC_iff.mp e4
  unfold shiftC at hp2 hq2 hp4 hq4
  rw [show i - 1 + 1 = i by omega] at hq2 hq4
  obtain ⟨b3, s3, m3⟩ := (rollC_iff hw).mp hp3
  obtain ⟨c3, t3, n3⟩ := (rollC_iff hw).mp hq3
  obtain ⟨b4, s4, m4⟩ := (rollC_iff hw).mp hp4
  obtain ⟨c4, t4, n4⟩ := (rollC_iff hw).mp hq4
  obtain ⟨_, _, m6⟩ := (rollC_iff hw).mp e6
  obtain ⟨_, s10, m10⟩ := (rollC_iff hw).mp e10
  obtain ⟨_, _, m11⟩ := (rollC_iff hw).mp e11
  obtain ⟨_, _, m12⟩ := (rollC_iff hw).mp e12
  obtain ⟨_, _, m13⟩ := (rollC_iff hw).mp e13
  obtain ⟨_, _, m14⟩ := (rollC_iff hw).mp e14
  obtain ⟨s9, m9⟩ := (rollingRange_iff hw).mp e9
  have hlt : w / 2 < i := by omega
  obtain ⟨a, ha⟩ : ∃ a, i - w / 2 = a + 1 := ⟨i - w / 2 - 1, by omega⟩
  have ha1 : i - 1 - w / 2 = a := by omega
  have ha2 : i + 1 - w / 2 = a + 1 + 1 := by omega
  rw [slopes_eq s10] at m10 m11 m12 m13 m14
  rw [ha] at m3 m6 n4 m10 m11 m12 m13 m14 t4 s3 s10
  rw [ha1] at n3 t3
  rw [ha2] at m4 s4
  change mean ((List.range w).map fun j => y (a + 1 + j)) = some p3 at m3
  change mean ((List.range w).map fun j => y (a + j)) = some q3 at n3
  change mean ((List.range w).map fun j => y (a + 1 + 1 + j)) = some p4 at m4
  change mean ((List.range w).map fun j => y (a + 1 + j)) = some q4 at n4
  change mean ((List.range w).map fun j => y (a + 1 + j)) = some a6 at m6
  change variance ((List.range w).map fun j => slope y (a + 1 + j)) = some a10 at m10
  change mean ((List.range w).map fun j => slope y (a + 1 + j)) = some a11 at m11
  change median ((List.range w).map fun j => slope y (a + 1 + j)) = some a12 at m12
  change ((List.range w).map fun j => slope y (a + 1 + j)).min? = some a13 at m13
  change ((List.range w).map fun j => slope y (a + 1 + j)).max? = some a14 at m14
  rw [mean_range hw, Option.some.injEq] at m3 n3 m4 n4 m6 m11
  rw [variance_range hw2, Option.some.injEq] at m10
  have hwq : (0 : ℚ) < (w : ℚ) := by exact_mod_cast hw
  have hw1 : (0 : ℚ) < (w : ℚ) - 1 := by
    have : (2 : ℚ) ≤ w := by exact_mod_cast hw2
    linarith
  have hall : ∀ k, i - w / 2 - 1 ≤ k → k < i + w → (scaledCol g k).isSome := by
    intro k hk1 hk2
    by_cases hki : k < i
    · have := t3 (k - a) (by omega)
      rwa [show a + (k - a) = k by omega] at this
    · have := s9 (k - i) (by omega)
      rwa [show i + (k - i) = k by omega] at this
  have hsc : ∀ k, i - w / 2 - 1 ≤ k → k < i + w → ScaledAt g k (y k) := by
    intro k hk1 hk2
    obtain ⟨z, hz⟩ := Option.isSome_iff_exists.mp (hall k hk1 hk2)
    rw [hget hz]
    exact scaledAt_iff.mp hz
  refine ⟨⟨hlt, hsc⟩, ?_⟩
  have hy0 : ∀ j < w, 0 ≤ y (i + j) := by
    intro j hj
    obtain ⟨z, hz⟩ := Option.isSome_iff_exists.mp (hall (i + j) (by omega) (by omega))
    rw [hget hz]
    exact (colOf_scaled hz).1
  obtain ⟨⟨u, hu, hud⟩, hmax⟩ := dailyMax_some e7
  have h7 := (scaled_range hu).1
  simp only [pctDailyMax, cellOp, Option.some.injEq] at e8
  constructor <;> (try rw [hwd]) <;> (try simp only)
  · exact (hget e5).symm
  · rw [hget hp1, hget hq1]
  · rw [hget hp2, hget hq2]
  · rw [ha, ← m6]
  · rw [ha, ← m3, ← n3, ← sub_div, sum_shift]
    rw [show a + 1 + w - 1 = a + w by omega, show a + 1 - 1 = a by omega]
  · rw [ha, ← m4, ← n4, ← sub_div, sum_shift]
  · exact (rangePct_iff hy0).mp m9
  · exact dailyMax_iff.mp e7
  · rw [← e8, hget e5]
    have : a7 + 1/100000 ≠ 0 := by linarith
    field_simp
  · rw [ha, ← m11, sum_slopes]
    rw [show a + 1 + w - 1 = a + w by omega, show a + 1 - 1 = a by omega]
  · rw [ha, ← m10, ← m11]
    field_simp
  · rw [ha]; exact Verif.isMedian_iff.mpr m12
  · rw [ha]; exact min_range_iff.mp m13
  · rw [ha]; exact max_range_iff.mp m14
  · split_ifs <;> omega

/-- **C94 (values).** Every row handed to the model belongs to a reading of the frame whose
neighbourhood is complete, and carries the published inputs for it: the scaled reading, its
differences to both neighbours, the moving average and its differences, the relative range of the
following readings, the daily maximum and the share of it, and the mean, variance, median, minimum
and maximum of the slopes around it. -/
theorem C94_features_values (g : Series) (n : Int) (m : String) :
    ∀ r ∈ featureTable g n m, ∃ (i : Nat) (v : Cell) (y : Nat → ℚ), g[i]? = some (r.1, v) ∧
      CompleteRow g n y i ∧ Describes g n m y i r.1 r.2 := by
  intro r hr
  rw [featureTable_eq] at hr
  obtain ⟨i, _, hi⟩ := List.mem_filterMap.mp hr
  obtain ⟨⟨t, v⟩, h1, h2⟩ := Option.bind_eq_some_iff.mp hi
  obtain ⟨x, hx, rfl⟩ := Option.map_eq_some_iff.mp h2
  have h3 := h1
  unfold scaledS at h3
  rw [List.getElem?_map] at h3
  obtain ⟨⟨t', v'⟩, h4, h5⟩ := Option.map_eq_some_iff.mp h3
  rw [Prod.mk.injEq] at h5
  obtain ⟨rfl, _⟩ := h5
  obtain ⟨h6, h7⟩ := featureRow_sound hx
  exact ⟨i, v', _, h4, h6, h7⟩

/-- **C94 (which rows).** Every reading with a complete neighbourhood is put to the model, unless
that reading and those that follow it in the window are all at the minimum of the frame (their
relative range is then undefined). -/
theorem C94_complete_rows {g : Series} {n : Int} {i : Nat} {t : Int} {v : Cell} {y : Nat → ℚ}
    (hi : g[i]? = some (t, v)) (hc : CompleteRow g n y i)
    (hpos : ∃ j < windowRows n, y (i + j) ≠ 0) (m : String) :
    ∃ x, (t, x) ∈ featureTable g n m := by
  obtain ⟨hlt, hall⟩ := hc
  have hw2 := windowRows_ge n
  have hsi : (scaledS g)[i]? = some (t, norm1 g.values v) := by
    unfold scaledS
    rw [List.getElem?_map, hi]
    rfl
  suffices h : ∃ x, featureRow (scaledS g) n (if n < 5 then 5 else n) m i t = some x by
    obtain ⟨x, hx⟩ := h
    refine ⟨x, ?_⟩
    rw [featureTable_eq, List.mem_filterMap]
    refine ⟨i, List.mem_range.mpr (List.getElem?_eq_some_iff.mp hsi).1, ?_⟩
    rw [hsi, Option.bind_some, hx]
    rfl
  have hcol : ∀ k, i - windowRows n / 2 - 1 ≤ k → k < i + windowRows n →
      colOf (scaledS g).values k = some (y k) := fun k h1 h2 => scaledAt_iff.mpr (hall k h1 h2)
  unfold featureRow
  simp only
  rw [rollWindow_eq]
  generalize windowRows n = w at *
  have hw : 0 < w := by omega
  have hback : ∀ k, i - w / 2 ≤ k → k < i + w →
      diffC (colOf (scaledS g).values) k = some (y k - y (k - 1)) := fun k h1 h2 =>
    diffC_iff.mpr ⟨by omega, y k, y (k - 1), hcol k (by omega) h2, hcol (k - 1) (by omega) (by omega), rfl⟩
  have hroll : ∀ (gf : List ℚ → Cell) (k : Nat), i - 1 ≤ k → k ≤ i + 1 →
      (∀ f : Nat → ℚ, ∃ z, gf ((List.range w).map f) = some z) →
      ∃ z, rollC w gf (colOf (scaledS g).values) k = some z := by
    intro gf k h1 h2 hg
    obtain ⟨z, hz⟩ := hg fun j => (colOf (scaledS g).values (k - w / 2 + j)).getD 0
    exact ⟨z, (rollC_iff hw).mpr ⟨by omega, fun j hj => by
      rw [hcol _ (by omega) (by omega)]; rfl, hz⟩⟩
  have hrollb : ∀ (gf : List ℚ → Cell),
      (∀ f : Nat → ℚ, ∃ z, gf ((List.range w).map f) = some z) →
      ∃ z, rollC w gf (diffC (colOf (scaledS g).values)) i = some z := by
    intro gf hg
    obtain ⟨z, hz⟩ := hg fun j => (diffC (colOf (scaledS g).values) (i - w / 2 + j)).getD 0
    exact ⟨z, (rollC_iff hw).mpr ⟨by omega, fun j hj => by
      rw [hback _ (by omega) (by omega)]; rfl, hz⟩⟩
  have hne : ∀ f : Nat → ℚ, (List.range w).map f ≠ [] := by
    intro f h
    have := congrArg List.length h
    simp at this
    omega
  have hmean : ∀ f : Nat → ℚ, ∃ z, mean ((List.range w).map f) = some z :=
    fun f => ⟨_, mean_range hw f⟩
  have hmin : ∀ f : Nat → ℚ, ∃ z, ((List.range w).map f).min? = some z := fun f =>
    Option.isSome_iff_exists.mp (List.isSome_min?_iff.mpr (hne f))
  have hmax : ∀ f : Nat → ℚ, ∃ z, ((List.range w).map f).max? = some z := fun f =>
    Option.isSome_iff_exists.mp (List.isSome_max?_iff.mpr (hne f))
  have hmed : ∀ f : Nat → ℚ, ∃ z, median ((List.range w).map f) = some z := by
    intro f
    have h := hne f
    unfold median quantile
    cases hl : (List.range w).map f with
    | nil => exact absurd hl h
    | cons a l => exact ⟨_, rfl⟩
  have hvar : ∀ f : Nat → ℚ, ∃ z, variance ((List.range w).map f) = some z :=
    fun f => ⟨_, variance_range hw2 f⟩
  obtain ⟨A0, hA0⟩ := hroll mean i (by omega) (by omega) hmean
  obtain ⟨A1, hA1⟩ := hroll mean (i - 1) (by omega) (by omega) hmean
  obtain ⟨A2, hA2⟩ := hroll mean (i + 1) (by omega) (by omega) hmean
  have hvi := hcol i (by omega) (by omega)
  have e2 : diffC (shiftC (colOf (scaledS g).values)) i = some (y (i + 1) - y i) :=
    diffC_iff.mpr ⟨by omega, _, _, hcol (i + 1) (by omega) (by omega), by
      unfold shiftC; rw [show i - 1 + 1 = i by omega]; exact hvi, rfl⟩
  have e3 : diffC (rollC w mean (colOf (scaledS g).values)) i = some (A0 - A1) :=
    diffC_iff.mpr ⟨by omega, _, _, hA0, hA1, rfl⟩
  have e4 : diffC (shiftC (rollC w mean (colOf (scaledS g).values))) i = some (A2 - A0) :=
    diffC_iff.mpr ⟨by omega, _, _, hA2, by
      unfold shiftC; rw [show i - 1 + 1 = i by omega]; exact hA0, rfl⟩
  obtain ⟨D, hD⟩ : ∃ d, dailyMax (scaledS g) t = some d := by
    have hm : (t, some (y i)) ∈ scaledS g := by
      have h3 : norm1 g.values v = some (y i) := by
        unfold colOf Series.values at hvi
        rw [List.getElem?_map, hsi] at hvi
        simpa [Series.values] using hvi
      rw [h3] at hsi
      exact List.mem_of_getElem? hsi
    exact dailyMax_isSome hm
  obtain ⟨R, hR⟩ : ∃ R, colOf (rollingRange w (scaledS g).values) i = some R := by
    have hy0 : ∀ j < w, 0 ≤ y (i + j) := fun j hj =>
      (colOf_scaled (hcol (i + j) (by omega) (by omega))).1
    obtain ⟨mx, hmx⟩ := hmax fun j => y (i + j)
    obtain ⟨mn, hmn⟩ := hmin fun j => y (i + j)
    have g1 := max_range_iff.mp hmx
    obtain ⟨j, hj, hne0⟩ := hpos
    have hp : 0 < mx := by
      have h1 := hy0 j hj
      have h2 : y (i + j) ≤ mx := g1.2 ⟨j, hj, rfl⟩
      have h3 : 0 < y (i + j) := lt_of_le_of_ne h1 (Ne.symm hne0)
      linarith
    refine ⟨100 * (mx - mn) / ((mx + mn) / 2), (rollingRange_iff hw).mpr ⟨fun j hj => by
      rw [hcol _ (by omega) (by omega)]; rfl, ?_⟩⟩
    · have hcong : ((List.range w).map fun j => (colOf (scaledS g).values (i + j)).getD 0) =
          (List.range w).map fun j => y (i + j) := by
        apply List.map_congr_left
        intro j hj
        have := List.mem_range.mp hj
        rw [hcol _ (by omega) (by omega)]
        rfl
      rw [hcong, rangePct_iff hy0]
      exact ⟨mx, mn, g1, min_range_iff.mp hmn, hp, rfl⟩
  obtain ⟨V1, hV1⟩ := hrollb variance hvar
  obtain ⟨V2, hV2⟩ := hrollb mean hmean
  obtain ⟨V3, hV3⟩ := hrollb median hmed
  obtain ⟨V4, hV4⟩ := hrollb List.min? hmin
  obtain ⟨V5, hV5⟩ := hrollb List.max? hmax
  simp only [hback i (by omega) (by omega), e2, e3, e4, hvi, hA0, hD, hR, hV1, hV2, hV3, hV4, hV5,
    Option.bind_some, pctDailyMax, cellOp]
  exact ⟨_, rfl⟩

/-- the inputs of one row of the sample: the reading 8 at 12:00 in steps of two hours, between 10
and 5, on a day with maximum 10 -/
example : ((featureTable twoDays 120 "fixed").map fun r =>
    [r.2.scaled, r.2.derivBack, r.2.derivFwd, r.2.average])[4]? =
      some ([8/10, -2/10, -3/10, 9/10] : List ℚ) := by decide +kernel

end Verif.Clip
