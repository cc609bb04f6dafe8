import Verif.Model.ClipXgb
import Verif.Lemmas.ClipLogic
import Verif.Lemmas.ClipRegular
import Verif.Lemmas.Affine

/-! Lemmas about the XGBoost clipping filter. -/

namespace Verif.Clip

open Verif

/-! ### min-max normalization -/

/-- `minMax` for one cell of the column `l` -/
def norm1 (l : List Cell) (v : Cell) : Cell :=
  match (valids l).max?, (valids l).min? with
  | some mx, some mn => if mx = mn then none else v.map fun x => (x - mn) / (mx - mn)
  | _, _ => none

theorem minMax_eq (l : List Cell) : minMax l = l.map (norm1 l) := by
  unfold minMax norm1
  cases (valids l).max? <;> cases (valids l).min? <;> simp only
  split_ifs <;> rfl

/-- the scaled series -/
def scaledS (s : Series) : Series := s.map fun r => (r.1, norm1 s.values r.2)

theorem withValues_minMax (s : Series) : withValues s (minMax s.values) = scaledS s := by
  rw [minMax_eq]
  unfold withValues scaledS
  rw [List.map_map]
  generalize norm1 s.values = F
  induction s with
  | nil => rfl
  | cons a l ih => simp only [List.map_cons, List.zip_cons_cons, Function.comp_apply]; rw [ih]

theorem index_scaledS (s : Series) : (scaledS s).map Prod.fst = s.map Prod.fst := by
  simp [scaledS, Function.comp_def]

theorem norm1_aff {a b : ℚ} (ha : 0 < a) (l : List Cell) (v : Cell) :
    norm1 (l.map fun v => v.map fun x => a * x + b) (v.map fun x => a * x + b) = norm1 l v := by
  have hm : Monotone fun x : ℚ => a * x + b := by
    intro x y h
    have := mul_le_mul_of_nonneg_left h ha.le
    simp only; linarith
  unfold norm1
  rw [valids_map, max?_mono hm, min?_mono hm]
  cases (valids l).max? with
  | none => rfl
  | some mx =>
    cases (valids l).min? with
    | none => rfl
    | some mn =>
      simp only [Option.map_some]
      have h1 : a * mx + b = a * mn + b ↔ mx = mn := by
        constructor
        · intro h
          have : a * mx = a * mn := by linarith
          exact mul_left_cancel₀ ha.ne' this
        · rintro rfl; rfl
      by_cases h : mx = mn
      · rw [if_pos (h1.mpr h), if_pos h]
      · rw [if_neg (fun e => h (h1.mp e)), if_neg h, Option.map_map]
        congr 1
        funext x
        simp only [Function.comp_apply]
        have e1 : a * x + b - (a * mn + b) = a * (x - mn) := by ring
        have e2 : a * mx + b - (a * mn + b) = a * (mx - mn) := by ring
        rw [e1, e2, mul_div_mul_left _ _ ha.ne']

theorem scaledS_aff {a b : ℚ} (ha : 0 < a) (s : Series) : scaledS (affS a b s) = scaledS s := by
  unfold scaledS
  have hv : Series.values (affS a b s) = s.values.map fun v => v.map fun x => a * x + b :=
    snd_affS a b s
  rw [hv]
  conv_lhs => unfold affS
  rw [List.map_map]
  apply List.map_congr_left
  intro r _
  simp only [Function.comp_apply]
  rw [norm1_aff ha]

/-! ### the grid -/

theorem resample5_aff (a b : ℚ) (s : Series) : resample5 (affS a b s) = affS a b (resample5 s) := by
  have hi : Series.index (affS a b s) = s.index := fst_affS a b s
  unfold resample5
  simp only [hi]
  conv_rhs => unfold affS
  rw [List.map_map]
  apply List.map_congr_left
  intro k _
  simp only [Function.comp_apply, Prod.mk.injEq, true_and]
  rw [← mean_aff, ← valids_map]
  unfold affS
  rw [List.filter_map, List.map_map, List.map_map]
  rfl

theorem xgbGrid_aff (a b : ℚ) (s : Series) (n : Int) :
    xgbGrid (affS a b s) n = (xgbGrid s n).map (affS a b) := by
  have hi : Series.index (affS a b s) = s.index := fst_affS a b s
  unfold xgbGrid
  rw [hi, interpolateSeries_aff]
  split_ifs with h1 h2
  · rfl
  · generalize interpolateSeries _ _ _ = g
    cases g with
    | error e => rfl
    | ok g => simp only [Except.map, resample5_aff]
  · generalize interpolateSeries _ _ _ = g
    cases g with
    | error e => rfl
    | ok g => simp only [Except.map]

theorem featureTable_eq (g : Series) (n : Int) (m : String) :
    featureTable g n m = (List.range (scaledS g).length).filterMap fun i =>
      ((scaledS g)[i]?).bind fun r =>
        (featureRow (scaledS g) n (if n < 5 then 5 else n) m i r.1).map fun x => (r.1, x) := by
  unfold featureTable
  rw [withValues_minMax]

theorem featureTable_aff {a b : ℚ} (ha : 0 < a) (g : Series) (n : Int) (m : String) :
    featureTable (affS a b g) n m = featureTable g n m := by
  rw [featureTable_eq, featureTable_eq, scaledS_aff ha]

/-! ### the filter -/

/-- the verdicts from the scaled readings and the predictions -/
def verdicts (n : Int) (sc : Series) (pred : List Bool) : List Bool :=
  sc.map fun r =>
    !xgbClipped n (xgbLevels (clippedRows sc pred) (dayOf r.1)).1
      (xgbLevels (clippedRows sc pred) (dayOf r.1)).2 r.2 (dailyMax sc r.1)

theorem xgb_eq (predict : List Features → List Bool) (s : Series) (m : String) :
    xgbClipFilter predict s m = (formatClipping (.datetime s.index) m).bind fun _ =>
      match modeMin (stepsOf s.index) with
      | none => .error .keyError
      | some f => (xgbPredict predict s (f / minuteNs) m).bind fun pred =>
          .ok (verdicts (f / minuteNs) (scaledS s) pred) := by
  unfold xgbClipFilter
  simp only [withValues_minMax]
  rfl

theorem xgb_aff {a b : ℚ} (ha : 0 < a) (predict : List Features → List Bool) (s : Series)
    (m : String) : xgbClipFilter predict (affS a b s) m = xgbClipFilter predict s m := by
  have hi : Series.index (affS a b s) = s.index := fst_affS a b s
  rw [xgb_eq, xgb_eq, hi, scaledS_aff ha]
  generalize formatClipping (.datetime s.index) m = F
  generalize modeMin (stepsOf s.index) = f
  cases F with
  | error e => simp only [Except.bind]
  | ok o =>
    cases f with
    | none => simp only [Except.bind]
    | some f =>
      have hp : xgbPredict predict (affS a b s) (f / minuteNs) m =
          xgbPredict predict s (f / minuteNs) m := by
        unfold xgbPredict
        rw [xgbGrid_aff, hi]
        generalize xgbGrid s (f / minuteNs) = G
        cases G with
        | error e => simp only [Except.map, Except.bind]
        | ok g =>
          simp only [Except.map, Except.bind]
          rw [featureTable_aff ha]
      simp only
      rw [hp]

theorem xgb_ok {predict : List Features → List Bool} {s : Series} {m : String} {out : List Bool}
    (h : xgbClipFilter predict s m = .ok out) :
    ∃ f pred, (∃ o, formatClipping (.datetime s.index) m = .ok o) ∧
      modeMin (stepsOf s.index) = some f ∧ xgbPredict predict s (f / minuteNs) m = .ok pred ∧
      out = verdicts (f / minuteNs) (scaledS s) pred := by
  rw [xgb_eq] at h
  obtain ⟨o, ho, h⟩ := bindOk.mp h
  cases hf : modeMin (stepsOf s.index) with
  | none => rw [hf] at h; simp at h
  | some f =>
    rw [hf] at h
    obtain ⟨pred, hp, h⟩ := bindOk.mp h
    exact ⟨f, pred, ⟨o, ho⟩, rfl, hp, (Except.ok.injEq _ _ ▸ h).symm⟩

theorem xgbPredict_ok {predict : List Features → List Bool} {s : Series} {n : Int} {m : String}
    {pred : List Bool} (h : xgbPredict predict s n m = .ok pred) :
    ∃ g, xgbGrid s n = .ok g ∧ predictions predict (featureTable g n m) s.index = .ok pred :=
  bindOk.mp h

theorem predictions_ok {predict : List Features → List Bool} {T : List (Int × Features)}
    {idx : List Int} {pred : List Bool} (h : predictions predict T idx = .ok pred) :
    (predict (T.map Prod.snd)).length = T.length ∧
    pred = idx.map fun t => (lastLabelLe ((T.map Prod.fst).zip (predict (T.map Prod.snd))) t).getD false := by
  unfold predictions at h
  simp only at h
  split_ifs at h with h1
  · push Not at h1
    exact ⟨h1, (Except.ok.injEq _ _ ▸ h).symm⟩

theorem length_verdicts (n : Int) (sc : Series) (pred : List Bool) :
    (verdicts n sc pred).length = sc.length := by
  simp [verdicts]

theorem verdicts_get {n : Int} {sc : Series} {pred : List Bool} {i : Nat} {t : Int} {v : Cell}
    (h : sc[i]? = some (t, v)) : (verdicts n sc pred)[i]? =
      some (!xgbClipped n (xgbLevels (clippedRows sc pred) (dayOf t)).1
        (xgbLevels (clippedRows sc pred) (dayOf t)).2 v (dailyMax sc t)) := by
  unfold verdicts
  rw [List.getElem?_map, h]
  rfl

theorem scaledS_get {s : Series} {i : Nat} {t : Int} {v : Cell} (h : s[i]? = some (t, v)) :
    (scaledS s)[i]? = some (t, norm1 s.values v) := by
  unfold scaledS
  rw [List.getElem?_map, h]; rfl

theorem xgbClipped_iff {n : Int} {lo hi v d : Cell} : xgbClipped n lo hi v d = true ↔
    ∃ l h x p, lo = some l ∧ hi = some h ∧ v = some x ∧ pctDailyMax v d = some p ∧
      (if n < 5 then max l (h * (96/100)) else l) ≤ x ∧
      (if n < 5 then 9/10 else 95/100 : ℚ) ≤ p ∧ x ≤ h * (10025/10000) ∧ 1/10 ≤ x := by
  unfold xgbClipped
  cases lo with
  | none => simp
  | some l =>
    cases hi with
    | none => simp
    | some h =>
      cases v with
      | none => simp
      | some x =>
        cases hp : pctDailyMax (some x) d with
        | none => simp
        | some p =>
          simp only [Bool.and_eq_true, decide_eq_true_eq]
          constructor
          · rintro ⟨⟨⟨a, b⟩, c⟩, e⟩
            exact ⟨l, h, x, p, rfl, rfl, rfl, rfl, a, b, c, e⟩
          · rintro ⟨l', h', x', p', e1, e2, e3, e4, a, b, c, e⟩
            rw [Option.some.injEq] at e1 e2 e3 e4
            subst e1 e2 e3 e4
            exact ⟨⟨⟨a, b⟩, c⟩, e⟩

theorem xgbLevels_some {clip : Series} {d : Int} {l h : ℚ}
    (hl : (xgbLevels clip d).1 = some l) (hh : (xgbLevels clip d).2 = some h) :
    ∃ a b e, clip.head? = some a ∧ clip.getLast? = some b ∧ dayOf a.1 ≤ d ∧
      e = min d (dayOf b.1) ∧
      l ∈ valids (onDay clip e) ∧ (∀ y ∈ valids (onDay clip e), l ≤ y) ∧
      h ∈ valids (onDay clip e) ∧ (∀ y ∈ valids (onDay clip e), y ≤ h) := by
  unfold xgbLevels levelDay at hl hh
  cases ha : clip.head? with
  | none => rw [ha] at hl; simp at hl
  | some a =>
    cases hb : clip.getLast? with
    | none => rw [ha, hb] at hl; simp at hl
    | some b =>
      rw [ha, hb] at hl hh
      simp only at hl hh
      by_cases hd : dayOf a.1 ≤ d
      · rw [if_pos hd] at hl hh
        simp only at hl hh
        obtain ⟨h1, h2⟩ := List.min?_eq_some_iff.mp hl
        obtain ⟨h3, h4⟩ := List.max?_eq_some_iff.mp hh
        exact ⟨a, b, _, rfl, rfl, hd, rfl, h1, h2, h3, h4⟩
      · rw [if_neg hd] at hl; simp at hl

theorem mem_onDay {s : Series} {d : Int} {x : ℚ} :
    x ∈ valids (onDay s d) ↔ ∃ t, (t, some x) ∈ s ∧ dayOf t = d := by
  unfold onDay valids
  simp only [List.mem_filterMap, List.mem_map, List.mem_filter, decide_eq_true_eq, id]
  constructor
  · rintro ⟨c, ⟨⟨t, v⟩, ⟨h1, h2⟩, h3⟩, h4⟩
    subst h4
    simp only at h3
    subst h3
    exact ⟨t, h1, h2⟩
  · rintro ⟨t, h1, h2⟩
    exact ⟨some x, ⟨(t, some x), ⟨h1, h2⟩, rfl⟩, rfl⟩

theorem mem_clippedRows {s : Series} {pred : List Bool} {r : Int × Cell} :
    r ∈ clippedRows s pred ↔ ∃ i : Nat, s[i]? = some r ∧ pred[i]? = some true := by
  unfold clippedRows
  constructor
  · intro h
    obtain ⟨⟨r', b⟩, h1, rfl⟩ := List.mem_map.mp h
    obtain ⟨h2, h3⟩ := List.mem_filter.mp h1
    obtain ⟨i, hi⟩ := List.mem_iff_getElem?.mp h2
    obtain ⟨h4, h5⟩ := List.getElem?_zip_eq_some.mp hi
    simp only at h3
    subst h3
    exact ⟨i, h4, h5⟩
  · rintro ⟨i, h1, h2⟩
    refine List.mem_map.mpr ⟨(r, true), List.mem_filter.mpr ⟨?_, rfl⟩, rfl⟩
    exact List.mem_iff_getElem?.mpr ⟨i, List.getElem?_zip_eq_some.mpr ⟨h1, h2⟩⟩

theorem norm1_some {l : List Cell} {x y : ℚ} (h : norm1 l (some x) = some y) :
    ∃ mx mn, mx ∈ valids l ∧ mn ∈ valids l ∧ (∀ z ∈ valids l, mn ≤ z ∧ z ≤ mx) ∧ mn < mx ∧
      y = (x - mn) / (mx - mn) ∧
      ∀ c : Cell, norm1 l c = c.map fun x => (x - mn) / (mx - mn) := by
  unfold norm1 at h ⊢
  cases hm : (valids l).max? with
  | none => rw [hm] at h; simp at h
  | some mx =>
    cases hn : (valids l).min? with
    | none => rw [hm, hn] at h; simp at h
    | some mn =>
      rw [hm, hn] at h
      simp only at h ⊢
      obtain ⟨h1, h2⟩ := List.max?_eq_some_iff.mp hm
      obtain ⟨h3, h4⟩ := List.min?_eq_some_iff.mp hn
      by_cases he : mx = mn
      · rw [if_pos he] at h; simp at h
      · rw [if_neg he, Option.map_some, Option.some.injEq] at h
        refine ⟨mx, mn, h1, h3, fun z hz => ⟨h4 z hz, h2 z hz⟩, ?_, h.symm, fun c => ?_⟩
        · exact lt_of_le_of_ne (h4 mx h1) (fun e => he e.symm)
        · rw [if_neg he]

theorem norm1_none (l : List Cell) : norm1 l none = none := by
  unfold norm1
  cases (valids l).max? <;> cases (valids l).min? <;> simp

theorem mem_scaledS {s : Series} {t : Int} {y : ℚ} (h : (t, some y) ∈ scaledS s) :
    ∃ x, (t, some x) ∈ s ∧ norm1 s.values (some x) = some y := by
  unfold scaledS at h
  obtain ⟨⟨t', v⟩, h1, h2⟩ := List.mem_map.mp h
  rw [Prod.mk.injEq] at h2
  obtain ⟨rfl, h3⟩ := h2
  cases v with
  | none => rw [norm1_none] at h3; simp at h3
  | some x => exact ⟨x, h1, h3⟩

end Verif.Clip
