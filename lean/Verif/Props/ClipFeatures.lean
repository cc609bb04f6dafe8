import Verif.Props.ClipXgb
import Verif.Spec.ClipXgb
import Verif.Lemmas.Percentile

/-!
Property C86: the inputs of the XGBoost model (rdtools/filtering.py:705-780, 830-868) are always
complete and in range.
-/

namespace Verif.Clip
open Verif Verif.Clip.Spec

theorem mapM_some {α β : Type} {f : α → Option β} {l : List α} {r : List β}
    (h : l.mapM f = some r) : (∀ y ∈ r, ∃ x ∈ l, f x = some y) ∧ (∀ x ∈ l, ∃ y ∈ r, f x = some y) ∧
      r.length = l.length := by
  induction l generalizing r with
  | nil =>
    simp only [List.mapM_nil] at h
    cases h
    simp
  | cons a l ih =>
    rw [List.mapM_cons] at h
    obtain ⟨b, hb, h⟩ := Option.bind_eq_some_iff.mp h
    obtain ⟨r', hr, h⟩ := Option.bind_eq_some_iff.mp h
    cases h
    obtain ⟨h1, h2, h3⟩ := ih hr
    refine ⟨?_, ?_, by simp [h3]⟩
    · intro y hy
      rw [List.mem_cons] at hy
      rcases hy with rfl | hy
      · exact ⟨a, by simp, hb⟩
      · obtain ⟨x, hx, hxy⟩ := h1 y hy
        exact ⟨x, by simp [hx], hxy⟩
    · intro x hx
      rw [List.mem_cons] at hx
      rcases hx with rfl | hx
      · exact ⟨b, by simp, hb⟩
      · obtain ⟨y, hy, hxy⟩ := h2 x hx
        exact ⟨y, by simp [hy], hxy⟩

/-- the window behind a rolling value: its members are values of the column, it has `w` members and
contains the row's own value -/
theorem rollC_some {w : Nat} (hw : 0 < w) {g : List ℚ → Cell} {c : Col} {i : Nat} {y : ℚ}
    (h : rollC w g c i = some y) :
    ∃ r : List ℚ, g r = some y ∧ r.length = w ∧ (∀ z ∈ r, ∃ k, c k = some z) ∧
      ∃ z ∈ r, c i = some z := by
  unfold rollC at h
  split_ifs at h with hc
  obtain ⟨r, hr, hy⟩ := Option.bind_eq_some_iff.mp h
  obtain ⟨h1, h2, h3⟩ := mapM_some hr
  refine ⟨r, hy, by simpa using h3, ?_, ?_⟩
  · intro z hz
    obtain ⟨x, _, hx⟩ := h1 z hz
    exact ⟨_, hx⟩
  · have hj : w - 1 - (w - 1) / 2 ∈ List.range w := List.mem_range.mpr (by omega)
    obtain ⟨z, hz, hz'⟩ := h2 _ hj
    have e : i + 1 + (w - 1) / 2 - w + (w - 1 - (w - 1) / 2) = i := by omega
    rw [e] at hz'
    exact ⟨z, hz, hz'⟩

theorem rollC_window_eq {w : Nat} {g g' : List ℚ → Cell} {c : Col} {i : Nat} {y y' : ℚ}
    (h : rollC w g c i = some y) (h' : rollC w g' c i = some y') (hw : 0 < w) :
    ∃ r : List ℚ, g r = some y ∧ g' r = some y' ∧ r.length = w ∧ (∀ z ∈ r, ∃ k, c k = some z) ∧
      ∃ z ∈ r, c i = some z := by
  unfold rollC at h h'
  split_ifs at h h' with hc
  obtain ⟨r, hr, hy⟩ := Option.bind_eq_some_iff.mp h
  obtain ⟨r', hr', hy'⟩ := Option.bind_eq_some_iff.mp h'
  rw [hr, Option.some.injEq] at hr'
  subst hr'
  obtain ⟨h1, h2, h3⟩ := mapM_some hr
  refine ⟨r, hy, hy', by simpa using h3, ?_, ?_⟩
  · intro z hz
    obtain ⟨x, _, hx⟩ := h1 z hz
    exact ⟨_, hx⟩
  · have hj : w - 1 - (w - 1) / 2 ∈ List.range w := List.mem_range.mpr (by omega)
    obtain ⟨z, hz, hz'⟩ := h2 _ hj
    have e : i + 1 + (w - 1) / 2 - w + (w - 1 - (w - 1) / 2) = i := by omega
    rw [e] at hz'
    exact ⟨z, hz, hz'⟩

theorem mean_bounds {l : List ℚ} {a b m : ℚ} (h : mean l = some m) (hb : ∀ x ∈ l, a ≤ x ∧ x ≤ b) :
    a ≤ m ∧ m ≤ b := by
  have hs : ∀ l : List ℚ, (∀ x ∈ l, a ≤ x ∧ x ≤ b) → a * l.length ≤ l.sum ∧ l.sum ≤ b * l.length := by
    intro l
    induction l with
    | nil => simp
    | cons x l ih =>
      intro hb
      obtain ⟨h1, h2⟩ := ih fun y hy => hb y (by simp [hy])
      obtain ⟨h3, h4⟩ := hb x (by simp)
      simp only [List.sum_cons, List.length_cons, Nat.cast_add, Nat.cast_one]
      constructor <;> linarith
  unfold mean at h
  cases l with
  | nil => simp at h
  | cons x l =>
    simp only [Option.some.injEq] at h
    obtain ⟨h1, h2⟩ := hs _ hb
    have hp : (0 : ℚ) < ((x :: l).length : ℚ) := by
      rw [List.length_cons]; positivity
    subst h
    constructor
    · rwa [le_div_iff₀ hp]
    · rwa [div_le_iff₀ hp]

theorem variance_bounds {l : List ℚ} {v : ℚ} (h : variance l = some v)
    (hb : ∀ x ∈ l, -1 ≤ x ∧ x ≤ 1) : 0 ≤ v ∧ v ≤ 2 := by
  unfold variance at h
  cases hm : mean l with
  | none => rw [hm] at h; simp at h
  | some m =>
    rw [hm] at h
    simp only at h
    split_ifs at h with hl
    rw [Option.some.injEq] at h
    subst h
    push Not at hl
    have hlq : (2 : ℚ) ≤ l.length := by exact_mod_cast hl
    have hmm : l.sum = m * l.length := by
      unfold mean at hm
      cases l with
      | nil => simp at hl
      | cons x l =>
        simp only [Option.some.injEq] at hm
        rw [← hm]
        field_simp
    have hsum : ∀ l : List ℚ, (l.map fun x => (x - m) ^ 2).sum =
        (l.map fun x => x ^ 2).sum - 2 * m * l.sum + m ^ 2 * l.length := by
      intro l
      induction l with
      | nil => simp
      | cons x l ih =>
        simp only [List.map_cons, List.sum_cons, List.length_cons, ih]
        push_cast
        ring
    have hsq : ∀ l : List ℚ, (∀ x ∈ l, -1 ≤ x ∧ x ≤ 1) → (l.map fun x => x ^ 2).sum ≤ (l.length : ℚ) := by
      intro l
      induction l with
      | nil => simp
      | cons x l ih =>
        intro hb
        have h1 := ih fun y hy => hb y (by simp [hy])
        obtain ⟨h3, h4⟩ := hb x (by simp)
        simp only [List.map_cons, List.sum_cons, List.length_cons, Nat.cast_add, Nat.cast_one]
        nlinarith
    have hnn : ∀ l : List ℚ, 0 ≤ (l.map fun x => (x - m) ^ 2).sum := by
      intro l
      induction l with
      | nil => simp
      | cons x l ih => simp only [List.map_cons, List.sum_cons]; positivity
    have hp : (0 : ℚ) < (l.length : ℚ) - 1 := by linarith
    constructor
    · exact div_nonneg (hnn l) hp.le
    · rw [div_le_iff₀ hp, hsum, hmm]
      have := hsq l hb
      nlinarith [mul_nonneg (sq_nonneg m) (by linarith : (0 : ℚ) ≤ l.length)]

theorem rangePct_bounds {l : List ℚ} {v : ℚ} (h : rangePct l = some v)
    (hb : ∀ x ∈ l, 0 ≤ x ∧ x ≤ 1) : 0 ≤ v ∧ v ≤ 200 := by
  unfold rangePct at h
  cases hmx : l.max? with
  | none => rw [hmx] at h; simp at h
  | some mx =>
    cases hmn : l.min? with
    | none => rw [hmx, hmn] at h; simp at h
    | some mn =>
      rw [hmx, hmn] at h
      simp only at h
      split_ifs at h with h0
      rw [Option.some.injEq] at h
      subst h
      obtain ⟨a1, a2⟩ := List.max?_eq_some_iff.mp hmx
      obtain ⟨b1, b2⟩ := List.min?_eq_some_iff.mp hmn
      have h1 := (hb mx a1).1
      have h2 := (hb mn b1).1
      have h3 := b2 mx a1
      have hp : 0 < (mx + mn) / 2 := by
        rcases lt_or_eq_of_le (by linarith : 0 ≤ mx + mn) with h | h
        · linarith
        · exact absurd h.symm h0
      constructor
      · have : 0 ≤ (mx - mn) / ((mx + mn) / 2) := div_nonneg (by linarith) hp.le
        linarith
      · have : (mx - mn) / ((mx + mn) / 2) ≤ 2 := by
          rw [div_le_iff₀ hp]; linarith
        linarith

/-- column values of the scaled series -/
theorem colOf_scaled {s : Series} {i : Nat} {y : ℚ} (h : colOf (scaledS s).values i = some y) :
    0 ≤ y ∧ y ≤ 1 := by
  unfold colOf at h
  rw [Option.join_eq_some_iff, List.getElem?_map] at h
  obtain ⟨r, hr, hr2⟩ := Option.map_eq_some_iff.mp h
  have : (r.1, some y) ∈ scaledS s := by rw [← hr2]; exact List.mem_of_getElem? hr
  exact scaled_range this

theorem diffC_bounds {c : Col} (hc : ∀ i y, c i = some y → 0 ≤ y ∧ y ≤ 1) {i : Nat} {d : ℚ}
    (h : diffC c i = some d) : -1 ≤ d ∧ d ≤ 1 := by
  unfold diffC at h
  split_ifs at h
  cases h1 : c i with
  | none => rw [h1] at h; simp [cellOp] at h
  | some a =>
    cases h2 : c (i - 1) with
    | none => rw [h1, h2] at h; simp [cellOp] at h
    | some b =>
      rw [h1, h2] at h
      simp only [cellOp, Option.some.injEq] at h
      subst h
      obtain ⟨a1, a2⟩ := hc _ _ h1
      obtain ⟨b1, b2⟩ := hc _ _ h2
      constructor <;> linarith

theorem rollWindow_pos (n : Int) : 0 < rollWindow n := by
  unfold rollWindow; split_ifs <;> omega

theorem rollingRange_col {s : Series} {w i : Nat} {y : ℚ}
    (h : colOf (rollingRange w (scaledS s).values) i = some y) : 0 ≤ y ∧ y ≤ 200 := by
  unfold colOf at h
  rw [Option.join_eq_some_iff] at h
  have hm := List.mem_of_getElem? h
  unfold rollingRange at hm
  obtain ⟨k, _, hk⟩ := List.mem_map.mp hm
  simp only at hk
  split_ifs at hk
  refine rangePct_bounds hk ?_
  intro x hx
  unfold valids at hx
  obtain ⟨v, hv, hv2⟩ := List.mem_filterMap.mp hx
  simp only [id] at hv2
  subst hv2
  have := List.mem_of_mem_drop (List.mem_of_mem_take hv)
  obtain ⟨j, hj⟩ := List.mem_iff_getElem?.mp this
  exact colOf_scaled (i := j) (by unfold colOf; rw [hj]; rfl)

/-- every row of features is well-formed -/
theorem featureRow_wf {s : Series} {n freq : Int} (hfr : 5 ≤ freq) {m : String} {i : Nat} {t : Int} {v : Cell}
    (ht : (scaledS s)[i]? = some (t, v)) {x : Features}
    (h : featureRow (scaledS s) n freq m i t = some x) : WellFormed m x := by
  unfold featureRow at h
  simp only at h
  obtain ⟨a1, e1, h⟩ := Option.bind_eq_some_iff.mp h
  obtain ⟨a2, e2, h⟩ := Option.bind_eq_some_iff.mp h
  obtain ⟨a3, e3, h⟩ := Option.bind_eq_some_iff.mp h
  obtain ⟨a4, e4, h⟩ := Option.bind_eq_some_iff.mp h
  obtain ⟨a5, e5, h⟩ := Option.bind_eq_some_iff.mp h
  obtain ⟨a6, e6, h⟩ := Option.bind_eq_some_iff.mp h
  obtain ⟨a7, e7, h⟩ := Option.bind_eq_some_iff.mp h
  obtain ⟨a8, e8, h⟩ := Option.bind_eq_some_iff.mp h
  obtain ⟨a9, e9, h⟩ := Option.bind_eq_some_iff.mp h
  obtain ⟨a10, e10, h⟩ := Option.bind_eq_some_iff.mp h
  obtain ⟨a11, e11, h⟩ := Option.bind_eq_some_iff.mp h
  obtain ⟨a12, e12, h⟩ := Option.bind_eq_some_iff.mp h
  obtain ⟨a13, e13, h⟩ := Option.bind_eq_some_iff.mp h
  obtain ⟨a14, e14, h⟩ := Option.bind_eq_some_iff.mp h
  rw [Option.some.injEq] at h
  subst h
  have hw := rollWindow_pos n
  have hv : ∀ i y, colOf (scaledS s).values i = some y → 0 ≤ y ∧ y ≤ 1 := fun i y h => colOf_scaled h
  have havg : ∀ i y, rollC (rollWindow n) mean (colOf (scaledS s).values) i = some y →
      0 ≤ y ∧ y ≤ 1 := by
    intro i y h
    obtain ⟨r, hr, _, hall, _⟩ := rollC_some hw h
    refine mean_bounds hr fun z hz => ?_
    obtain ⟨k, hk⟩ := hall z hz
    exact hv k z hk
  have hback : ∀ i y, diffC (colOf (scaledS s).values) i = some y → -1 ≤ y ∧ y ≤ 1 :=
    fun i y h => diffC_bounds hv h
  obtain ⟨⟨u, hu, hud⟩, hmax⟩ := dailyMax_some e7
  have hv5 : v = some a5 := by
    unfold colOf at e5
    rw [List.getElem?_map, ht] at e5
    simpa using e5
  subst hv5
  have hle : a5 ≤ a7 := hmax t a5 (List.mem_of_getElem? ht) rfl
  have h7 := scaled_range hu
  have h5 := hv _ _ e5
  simp only [pctDailyMax, cellOp, Option.some.injEq] at e8
  obtain ⟨r, hr12, hr13, _, hall, z, hz, hzi⟩ := rollC_window_eq e12 e13 hw
  obtain ⟨r', hr13', hr14, _, hall', z', hz', hzi'⟩ := rollC_window_eq e13 e14 hw
  obtain ⟨r'', hr11, hr13'', _, hall'', _⟩ := rollC_window_eq e11 e13 hw
  obtain ⟨r3, hr12', hr14', _, hall3, _⟩ := rollC_window_eq e12 e14 hw
  obtain ⟨r4, hr11', hr14'', _, hall4, _⟩ := rollC_window_eq e11 e14 hw
  obtain ⟨r5, hr10, _, hall5, _⟩ := rollC_some hw e10
  obtain ⟨m1, m2⟩ := List.min?_eq_some_iff.mp hr13
  obtain ⟨m1', m2'⟩ := List.min?_eq_some_iff.mp hr13'
  obtain ⟨_, m2''⟩ := List.min?_eq_some_iff.mp hr13''
  obtain ⟨x1, x2⟩ := List.max?_eq_some_iff.mp hr14
  obtain ⟨_, x3⟩ := List.max?_eq_some_iff.mp hr14'
  obtain ⟨_, x4⟩ := List.max?_eq_some_iff.mp hr14''
  rw [e1, Option.some.injEq] at hzi'
  subst hzi'
  refine ⟨⟨h5.1, hle, h7.2⟩, havg _ _ e6, ⟨hback _ _ e1, diffC_bounds (fun i y h => hv (i + 1) y h) e2,
    diffC_bounds havg e3, diffC_bounds (fun i y h => havg (i + 1) y h) e4⟩, ?_, rollingRange_col e9,
    ?_, ⟨?_, ?_, ?_, ?_, ?_, ?_⟩, ⟨m2' _ hz', x2 _ hz'⟩, hfr, rfl⟩
  · have hp : 0 < a7 + 1/100000 := by linarith
    simp only
    rw [← e8]
    exact ⟨div_nonneg h5.1 hp.le, by rw [div_lt_one hp]; linarith⟩
  · exact variance_bounds hr10 fun z hz => by
      obtain ⟨k, hk⟩ := hall5 z hz
      exact hback k z hk
  · obtain ⟨k, hk⟩ := hall _ m1
    exact (hback k _ hk).1
  · have hb : ∀ z ∈ r'', a13 ≤ z ∧ z ≤ 1 := fun z hz => ⟨m2'' z hz, by
      obtain ⟨k, hk⟩ := hall'' z hz
      exact (hback k z hk).2⟩
    exact (mean_bounds hr11 hb).1
  · have hb : ∀ z ∈ r4, -1 ≤ z ∧ z ≤ a14 := fun z hz => ⟨by
      obtain ⟨k, hk⟩ := hall4 z hz
      exact (hback k z hk).1, x4 z hz⟩
    exact (mean_bounds hr11' hb).2
  · exact median_ge hr12 m2
  · exact median_le hr12' x3
  · obtain ⟨k, hk⟩ := hall' _ x1
    exact (hback k _ hk).2

/-- **C86.** Every row handed to the model is complete and within the documented meaning of its
columns: scaled values and averages in [0, 1], at most the daily maximum, slopes in [-1, 1], ordered
rolling statistics, a frequency of at least five minutes and the right mounting flag. -/
theorem C86_features_in_range (g : Series) (n : Int) (m : String) :
    ∀ r ∈ featureTable g n m, WellFormed m r.2 := by
  intro r hr
  rw [featureTable_eq] at hr
  obtain ⟨i, _, hi⟩ := List.mem_filterMap.mp hr
  obtain ⟨⟨t, v⟩, h1, h2⟩ := Option.bind_eq_some_iff.mp hi
  obtain ⟨x, hx, rfl⟩ := Option.map_eq_some_iff.mp h2
  exact featureRow_wf (by split_ifs <;> omega) h1 hx

/-- **C86 (consequence).** The result depends only on what the model answers to well-formed rows. -/
theorem C86_only_well_formed_rows_matter {predict predict' : List Features → List Bool} {m : String}
    (hp : ∀ l, (∀ x ∈ l, WellFormed m x) → predict l = predict' l) (s : Series) :
    xgbClipFilter predict s m = xgbClipFilter predict' s m := by
  have key : ∀ n, xgbPredict predict s n m = xgbPredict predict' s n m := by
    intro n
    unfold xgbPredict
    generalize xgbGrid s n = G
    cases G with
    | error e => simp only [Except.bind]
    | ok g =>
      simp only [Except.bind]
      unfold predictions
      rw [hp _ (by
        intro x hx
        obtain ⟨r, hr, rfl⟩ := List.mem_map.mp hx
        exact C86_features_in_range g n m r hr)]
  rw [xgb_eq, xgb_eq]
  simp only [key]

/-- the sample has rows -/
example : (featureTable twoDays 120 "fixed").length = 20 := by decide +kernel

end Verif.Clip
