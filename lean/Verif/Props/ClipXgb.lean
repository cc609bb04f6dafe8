import Verif.Lemmas.ClipXgb
import Verif.Lemmas.ClipDetect
import Verif.Spec.ClipLogic
import Verif.Spec.ClipXgb
import Mathlib.Tactic.Linarith
import Mathlib.Tactic.NormNum

/-!
Properties C82 to C85: the XGBoost clipping filter (rdtools/filtering.py:705-925). The trained model
is an arbitrary function.
-/

namespace Verif.Clip
open Verif Verif.Clip.Spec

/-! ### C82: totality -/

theorem stepsOf_ge {n : Int} {l : List Int} (h : l.Pairwise fun a b => a + n ≤ b) :
    ∀ d ∈ stepsOf l, n ≤ d := by
  induction l with
  | nil => simp [stepsOf]
  | cons a l ih =>
    cases l with
    | nil => simp [stepsOf]
    | cons b l =>
      obtain ⟨h1, h2⟩ := List.pairwise_cons.mp h
      intro d hd
      rw [stepsOf, List.mem_cons] at hd
      rcases hd with rfl | hd
      · have := h1 b (by simp); omega
      · exact ih h2 d hd

/-- **C82 (success).** On a series of more than ten readings at least a minute apart and with a known
mounting type the filter gives a result, whatever the model predicts. -/
theorem C82_total {predict : List Features → List Bool} (hp : ∀ l, (predict l).length = l.length)
    {s : Series} (hs : (s.map Prod.fst).Pairwise fun a b => a + 60000000000 ≤ b)
    (hl : 10 < s.length) {m : String} (hm : m = "fixed" ∨ m = "single_axis_tracking") :
    ∃ out, xgbClipFilter predict s m = .ok out := by
  obtain ⟨f, hf⟩ := Option.isSome_iff_exists.mp
    (modeMin_isSome (stepsOf_ne_nil (l := s.index) (by simp; omega)))
  have hge : 60000000000 ≤ f := stepsOf_ge hs f (modeMin_mem hf)
  have hss : StrictSorted (keys s) := hs.imp (fun {a b} h => by omega)
  have hn : ¬ f / minuteNs = 0 := by
    unfold minuteNs; omega
  rw [xgb_eq, formatClipping_of hm (hss.imp le_of_lt) (by simpa using hl), hf]
  have hg : ∃ g, xgbGrid s (f / minuteNs) = .ok g := by
    unfold xgbGrid
    rw [if_neg hn, interpolateSeries_eq hss]
    exact ⟨_, rfl⟩
  obtain ⟨g, hg⟩ := hg
  simp only [Except.bind, xgbPredict, hg, predictions]
  rw [if_neg (by rw [hp]; simp)]
  exact ⟨_, rfl⟩

/-- **C82 (rejections).** The filter refuses an unknown mounting type, an unsorted index and a
series of at most ten readings. -/
theorem C82_rejects {predict : List Features → List Bool} {s : Series} {m : String}
    (h : (m ≠ "fixed" ∧ m ≠ "single_axis_tracking") ∨ ¬ (s.map Prod.fst).Pairwise (· ≤ ·) ∨
      s.length ≤ 10) : ∃ e, xgbClipFilter predict s m = .error e := by
  cases hr : xgbClipFilter predict s m with
  | error e => exact ⟨e, rfl⟩
  | ok out =>
    obtain ⟨f, pred, ⟨o, ho⟩, _⟩ := xgb_ok hr
    obtain ⟨h1, h2, h3⟩ := formatClipping_ok ho
    rcases h with h | h | h
    · rcases h1 with e | e
      · exact absurd e h.1
      · exact absurd e h.2
    · exact absurd h2 h
    · simp at h3; omega

/-- **C82 (refuted).** Data sampled more often than once a minute are not accepted: every regular
series with steps below a minute ends in a ZeroDivisionError, because the sampling interval is
truncated to whole minutes. -/
theorem C82_subminute_refuted (predict : List Features → List Bool) (t0 : Int) {f : Int}
    (h0 : 0 < f) (h1 : f < 60000000000) {vals : List ℚ} (hl : 10 < vals.length) {m : String}
    (hm : m = "fixed" ∨ m = "single_axis_tracking") :
    xgbClipFilter predict (regular t0 f vals) m = .error .zeroDivisionError := by
  have hss : StrictSorted (keys (regular t0 f vals)) := regular_sorted h0 vals
  rw [xgb_eq, formatClipping_of hm (hss.imp le_of_lt) (by simpa [length_regular] using hl),
    modeMin_regular (by omega)]
  have hn : f / minuteNs = 0 := by unfold minuteNs; omega
  simp only [Except.bind, xgbPredict, xgbGrid, hn]
  rfl

/-- **C82 (length).** One verdict per reading. -/
theorem C82_length {predict : List Features → List Bool} {s : Series} {m : String} {out : List Bool}
    (h : xgbClipFilter predict s m = .ok out) : out.length = s.length := by
  obtain ⟨f, pred, _, _, _, rfl⟩ := xgb_ok h
  rw [length_verdicts]
  simp [scaledS]

/-- **C82 (missing readings).** A missing reading is never marked as clipping. -/
theorem C82_missing_kept {predict : List Features → List Bool} {s : Series} {m : String}
    {out : List Bool} (h : xgbClipFilter predict s m = .ok out) {i : Nat} {t : Int}
    (hi : s[i]? = some (t, none)) : out[i]? = some true := by
  obtain ⟨f, pred, _, _, _, rfl⟩ := xgb_ok h
  rw [verdicts_get (scaledS_get hi), norm1_none]
  have : ∀ n lo hi d, xgbClipped n lo hi none d = false := by
    intro n lo hi d
    rw [← Bool.not_eq_true, xgbClipped_iff]
    rintro ⟨_, _, _, _, _, _, h3, _⟩
    simp at h3
  rw [this]; rfl

/-! ### C83: unit and offset -/

/-- **C83.** Changing the unit of the power and adding an offset (`x ↦ a * x + b`, `a > 0`) changes
neither the features the model sees nor the result, for every model and every series. -/
theorem C83_unit_and_offset_independent (predict : List Features → List Bool) {a b : ℚ} (ha : 0 < a)
    (s : Series) (m : String) :
    xgbClipFilter predict (s.map fun r => (r.1, r.2.map fun x => a * x + b)) m =
      xgbClipFilter predict s m :=
  xgb_aff ha predict s m

/-! ### C84: what is excluded -/

/-- the scaled values of a series are in the unit interval -/
theorem scaled_range {s : Series} {t : Int} {y : ℚ} (h : (t, some y) ∈ scaledS s) :
    0 ≤ y ∧ y ≤ 1 := by
  obtain ⟨x, hx, hn⟩ := mem_scaledS h
  obtain ⟨mx, mn, _, _, hall, hlt, rfl, _⟩ := norm1_some hn
  have hxv : x ∈ valids s.values := by
    unfold valids
    rw [List.mem_filterMap]
    exact ⟨some x, List.mem_map.mpr ⟨_, hx, rfl⟩, rfl⟩
  obtain ⟨h1, h2⟩ := hall x hxv
  have hp : 0 < mx - mn := by linarith
  constructor
  · exact div_nonneg (by linarith) hp.le
  · rw [div_le_one hp]; linarith

theorem dailyMax_some {s : Series} {t : Int} {d : ℚ} (h : dailyMax s t = some d) :
    (∃ u, (u, some d) ∈ s ∧ dayOf u = dayOf t) ∧
      ∀ u y, (u, some y) ∈ s → dayOf u = dayOf t → y ≤ d := by
  unfold dailyMax at h
  obtain ⟨h1, h2⟩ := List.max?_eq_some_iff.mp h
  exact ⟨mem_onDay.mp h1, fun u y hu hd => h2 y (mem_onDay.mpr ⟨u, hu, hd⟩)⟩

theorem dailyMax_isSome {s : Series} {t : Int} {x : ℚ} (h : (t, some x) ∈ s) :
    ∃ d, dailyMax s t = some d := by
  unfold dailyMax
  rw [← Option.isSome_iff_exists, List.isSome_max?_iff]
  intro hc
  have : x ∈ valids (onDay s (dayOf t)) := mem_onDay.mpr ⟨t, h, rfl⟩
  rw [hc] at this
  simp at this

/-- membership in the scaled series -/
theorem mem_scaledS_of {s : Series} {t : Int} {v : Cell} (h : (t, v) ∈ s) :
    (t, norm1 s.values v) ∈ scaledS s := by
  unfold scaledS
  exact List.mem_map.mpr ⟨(t, v), h, rfl⟩

theorem clip_sorted {s : Series} (hs : s.index.Pairwise (· ≤ ·)) (pred : List Bool) :
    ((clippedRows (scaledS s) pred).map Prod.fst).Pairwise (· ≤ ·) := by
  have h1 : ((scaledS s).map Prod.fst).Pairwise (· ≤ ·) := by rw [index_scaledS]; exact hs
  refine List.Pairwise.sublist ?_ h1
  apply List.Sublist.map
  unfold clippedRows
  have : ∀ (l : Series) (p : List Bool),
      (((l.zip p).filter fun x => x.2).map Prod.fst).Sublist l := by
    intro l
    induction l with
    | nil => intro p; simp
    | cons a l ih =>
      intro p
      cases p with
      | nil => simp
      | cons b p =>
        rw [List.zip_cons_cons, List.filter_cons]
        cases b with
        | true => simpa using (ih p)
        | false => simpa using (ih p).cons a
  exact this _ _

theorem last_is_max {l : List (Int × Cell)} (h : (l.map Prod.fst).Pairwise (· ≤ ·))
    {b : Int × Cell} (hb : l.getLast? = some b) : ∀ r ∈ l, r.1 ≤ b.1 := by
  obtain ⟨l', rfl⟩ := List.getLast?_eq_some_iff.mp hb
  intro r hr
  rw [List.map_append, List.pairwise_append] at h
  rw [List.mem_append] at hr
  rcases hr with hr | hr
  · exact h.2.2 r.1 (List.mem_map_of_mem hr) b.1 (by simp)
  · simp at hr; rw [hr]

theorem head_is_min {l : List (Int × Cell)} (h : (l.map Prod.fst).Pairwise (· ≤ ·))
    {a : Int × Cell} (ha : l.head? = some a) : ∀ r ∈ l, a.1 ≤ r.1 := by
  cases l with
  | nil => simp at ha
  | cons b l =>
    simp only [List.head?_cons, Option.some.injEq] at ha
    subst ha
    intro r hr
    rw [List.mem_cons] at hr
    rw [List.map_cons, List.pairwise_cons] at h
    rcases hr with rfl | hr
    · exact le_refl _
    · exact h.1 r.1 (List.mem_map_of_mem hr)

theorem dayOf_mono {a b : Int} (h : a ≤ b) : dayOf a ≤ dayOf b := by
  unfold dayOf dayNs; omega

/-- what is known of an excluded reading -/
theorem excluded_readings {predict : List Features → List Bool} {s : Series} {m : String}
    {out : List Bool} (h : xgbClipFilter predict s m = .ok out) {i : Nat} {t : Int} {x : ℚ}
    (hi : s[i]? = some (t, some x)) (ho : out[i]? = some false) :
    ∃ f pred mx mn, modeMin (stepsOf s.index) = some f ∧
      xgbPredict predict s (f / minuteNs) m = .ok pred ∧
      mx ∈ valids s.values ∧ mn ∈ valids s.values ∧ (∀ z ∈ valids s.values, mn ≤ z ∧ z ≤ mx) ∧
      mn < mx ∧ 1/10 * (mx - mn) ≤ x - mn ∧
      (∀ u y, (u, some y) ∈ s → SameDay t u →
        (if f / minuteNs < 5 then 9/10 else 95/100) * (y - mn) ≤ x - mn) ∧
      ∃ (j k : Nat) (tj tk : Int) (lo hi : ℚ), s[j]? = some (tj, some lo) ∧
        s[k]? = some (tk, some hi) ∧ pred[j]? = some true ∧ pred[k]? = some true ∧
        SameDay tj tk ∧ lo ≤ x ∧ x - mn ≤ 10025/10000 * (hi - mn) ∧
        (SameDay t tj ∨ (tj ≤ t ∧ ∀ (n : Nat) (u : Int) (v : Cell), s[n]? = some (u, v) →
          pred[n]? = some true → dayOf u < dayOf t)) := by
  obtain ⟨f, pred, ⟨o, hfo⟩, hf, hp, rfl⟩ := xgb_ok h
  have hsort := (formatClipping_ok hfo).2.1
  rw [verdicts_get (scaledS_get hi), Option.some.injEq, Bool.not_eq_false', xgbClipped_iff] at ho
  obtain ⟨l, hh, y, p, h1, h2, h3, h4, h5, h6, h7, h8⟩ := ho
  obtain ⟨mx, mn, hmx, hmn, hall, hlt, rfl, hnorm⟩ := norm1_some h3
  have hpos : 0 < mx - mn := by linarith
  have back : ∀ {t' : Int} {y' : ℚ} {n : Nat}, (scaledS s)[n]? = some (t', some y') →
      ∃ x', s[n]? = some (t', some x') ∧ y' = (x' - mn) / (mx - mn) := by
    intro t' y' n hn
    unfold scaledS at hn
    rw [List.getElem?_map] at hn
    obtain ⟨⟨u, v⟩, hr, hr2⟩ := Option.map_eq_some_iff.mp hn
    rw [Prod.mk.injEq] at hr2
    obtain ⟨rfl, hr3⟩ := hr2
    rw [hnorm] at hr3
    obtain ⟨x', rfl, hx'⟩ := Option.map_eq_some_iff.mp hr3
    exact ⟨x', hr, hx'.symm⟩
  refine ⟨f, pred, mx, mn, hf, hp, hmx, hmn, hall, hlt, ?_, ?_, ?_⟩
  · rwa [le_div_iff₀ hpos] at h8
  · intro u z hz hd
    rw [h3] at h4
    obtain ⟨d, hd'⟩ : ∃ d, dailyMax (scaledS s) t = some d := by
      cases hq : dailyMax (scaledS s) t with
      | none => rw [hq] at h4; simp [pctDailyMax, cellOp] at h4
      | some d => exact ⟨d, rfl⟩
    rw [hd'] at h4
    simp only [pctDailyMax, cellOp, Option.some.injEq] at h4
    obtain ⟨⟨u', hu', _⟩, hmax⟩ := dailyMax_some hd'
    have hz' : (z - mn) / (mx - mn) ≤ d := by
      have := mem_scaledS_of hz
      rw [hnorm, Option.map_some] at this
      exact hmax u _ this hd.symm
    have hd0 : 0 ≤ d := (scaled_range hu').1
    rw [← h4, le_div_iff₀ (by linarith)] at h6
    have hq : ∀ q : ℚ, 0 ≤ q → q * (d + 1/100000) ≤ (x - mn) / (mx - mn) →
        q * (z - mn) ≤ x - mn := by
      intro q hq0 hq
      rw [le_div_iff₀ hpos] at hq
      rw [div_le_iff₀ hpos] at hz'
      have h9 : q * (z - mn) ≤ q * (d * (mx - mn)) := mul_le_mul_of_nonneg_left hz' hq0
      have h10 : 0 ≤ q * (1/100000) * (mx - mn) := by positivity
      nlinarith
    split_ifs at h6 ⊢
    · exact hq _ (by norm_num) h6
    · exact hq _ (by norm_num) h6
  · obtain ⟨a, b, e, ha, hb, hd, he, m1, m2, m3, m4⟩ := xgbLevels_some h1 h2
    obtain ⟨tj, hj, hje⟩ := mem_onDay.mp m1
    obtain ⟨tk, hk, hke⟩ := mem_onDay.mp m3
    obtain ⟨j, hj1, hj2⟩ := mem_clippedRows.mp hj
    obtain ⟨k, hk1, hk2⟩ := mem_clippedRows.mp hk
    obtain ⟨lo, hlo, hlo'⟩ := back hj1
    obtain ⟨hi', hhi, hhi'⟩ := back hk1
    refine ⟨j, k, tj, tk, lo, hi', hlo, hhi, hj2, hk2, hje.trans hke.symm, ?_, ?_, ?_⟩
    · have h9 : l ≤ (x - mn) / (mx - mn) := by
        refine le_trans ?_ h5
        split_ifs
        · exact le_max_left _ _
        · exact le_refl _
      rw [hlo', div_le_div_iff_of_pos_right hpos] at h9
      linarith
    · rw [hhi', div_mul_eq_mul_div, div_le_div_iff_of_pos_right hpos] at h7
      linarith
    · rcases le_or_gt (dayOf t) (dayOf b.1) with hc | hc
      · left
        rw [SameDay]
        have : e = dayOf t := by rw [he]; exact min_eq_left hc
        exact (hje.trans this).symm
      · right
        have hlast := last_is_max (clip_sorted hsort pred) hb
        refine ⟨?_, ?_⟩
        · by_contra hn
          push Not at hn
          have h9 := hlast _ hj
          have h10 := dayOf_mono h9
          have h11 := dayOf_mono hn.le
          simp only at h10
          omega
        · intro n u v hn hpn
          have h9 := hlast _ (mem_clippedRows.mpr ⟨n, scaledS_get hn, hpn⟩)
          have := dayOf_mono h9
          simp only at this
          omega

/-- when a predicted reading is excluded -/
theorem predicted_readings {predict : List Features → List Bool} {s : Series} {m : String}
    {out : List Bool} (h : xgbClipFilter predict s m = .ok out) {f : Int} {pred : List Bool}
    (hf : modeMin (stepsOf s.index) = some f) (hp : xgbPredict predict s (f / minuteNs) m = .ok pred)
    {i : Nat} {t : Int} {x : ℚ} (hi : s[i]? = some (t, some x)) (hpi : pred[i]? = some true)
    {mx mn : ℚ} (hmx : mx ∈ valids s.values) (hmn : mn ∈ valids s.values)
    (hall : ∀ z ∈ valids s.values, mn ≤ z ∧ z ≤ mx) (hlt : mn < mx)
    (h10 : 1/10 * (mx - mn) ≤ x - mn)
    (h96 : ∀ u y, (u, some y) ∈ s → SameDay t u →
      96/100 * (y - mn + 1/100000 * (mx - mn)) ≤ x - mn) : out[i]? = some false := by
  obtain ⟨f', pred', ⟨o, hfo⟩, hf', hp', rfl⟩ := xgb_ok h
  rw [hf, Option.some.injEq] at hf'
  subst hf'
  rw [hp, Except.ok.injEq] at hp'
  subst hp'
  have hsort := (formatClipping_ok hfo).2.1
  have hpos : 0 < mx - mn := by linarith
  have hnorm : ∀ c : Cell, norm1 s.values c = c.map fun x => (x - mn) / (mx - mn) := by
    intro c
    have e1 : (valids s.values).max? = some mx := List.max?_eq_some_iff.mpr ⟨hmx, fun z hz => (hall z hz).2⟩
    have e2 : (valids s.values).min? = some mn := List.min?_eq_some_iff.mpr ⟨hmn, fun z hz => (hall z hz).1⟩
    unfold norm1
    rw [e1, e2]
    simp only
    rw [if_neg (by linarith)]
  have hsc := scaledS_get hi
  rw [hnorm, Option.map_some] at hsc
  rw [verdicts_get hsc, Option.some.injEq, Bool.not_eq_false', xgbClipped_iff]
  have hclip : (t, some ((x - mn) / (mx - mn))) ∈ clippedRows (scaledS s) pred :=
    mem_clippedRows.mpr ⟨i, hsc, hpi⟩
  obtain ⟨a, ha⟩ : ∃ a, (clippedRows (scaledS s) pred).head? = some a := by
    cases hh : (clippedRows (scaledS s) pred).head? with
    | none => rw [List.head?_eq_none_iff] at hh; rw [hh] at hclip; simp at hclip
    | some a => exact ⟨a, rfl⟩
  obtain ⟨b, hb⟩ : ∃ b, (clippedRows (scaledS s) pred).getLast? = some b := by
    cases hh : (clippedRows (scaledS s) pred).getLast? with
    | none => rw [List.getLast?_eq_none_iff] at hh; rw [hh] at hclip; simp at hclip
    | some b => exact ⟨b, rfl⟩
  have hda := dayOf_mono (head_is_min (clip_sorted hsort pred) ha _ hclip)
  have hdb := dayOf_mono (last_is_max (clip_sorted hsort pred) hb _ hclip)
  simp only at hda hdb
  have hlev : levelDay (clippedRows (scaledS s) pred) (dayOf t) = some (dayOf t) := by
    unfold levelDay
    rw [ha, hb]
    simp only
    rw [if_pos hda, min_eq_left hdb]
  have hmem : (x - mn) / (mx - mn) ∈ valids (onDay (clippedRows (scaledS s) pred) (dayOf t)) :=
    mem_onDay.mpr ⟨t, hclip, rfl⟩
  obtain ⟨lo, hlo⟩ : ∃ lo, (valids (onDay (clippedRows (scaledS s) pred) (dayOf t))).min? = some lo := by
    rw [← Option.isSome_iff_exists, List.isSome_min?_iff]
    intro hc; rw [hc] at hmem; simp at hmem
  obtain ⟨hi', hhi⟩ : ∃ hi', (valids (onDay (clippedRows (scaledS s) pred) (dayOf t))).max? = some hi' := by
    rw [← Option.isSome_iff_exists, List.isSome_max?_iff]
    intro hc; rw [hc] at hmem; simp at hmem
  obtain ⟨_, hlo2⟩ := List.min?_eq_some_iff.mp hlo
  obtain ⟨hhi1, hhi2⟩ := List.max?_eq_some_iff.mp hhi
  obtain ⟨d, hd⟩ := dailyMax_isSome (List.mem_of_getElem? hsc)
  obtain ⟨⟨u, hu, hud⟩, hdmax⟩ := dailyMax_some hd
  obtain ⟨yd, hyd, hyd'⟩ := mem_scaledS hu
  rw [hnorm, Option.map_some, Option.some.injEq] at hyd'
  have hd0 : 0 ≤ d := (scaled_range hu).1
  have hx0 : 0 ≤ (x - mn) / (mx - mn) := (scaled_range (List.mem_of_getElem? hsc)).1
  have hxhi : (x - mn) / (mx - mn) ≤ hi' := hhi2 _ hmem
  have h96' : 96/100 * (d + 1/100000) ≤ (x - mn) / (mx - mn) := by
    rw [le_div_iff₀ hpos, ← hyd']
    have := h96 u yd hyd hud.symm
    have e : 96/100 * ((yd - mn) / (mx - mn) + 1/100000) * (mx - mn) =
        96/100 * (yd - mn + 1/100000 * (mx - mn)) := by
      field_simp
    rw [e]; exact this
  refine ⟨lo, hi', (x - mn) / (mx - mn), (x - mn) / (mx - mn) / (d + 1/100000), ?_, ?_, rfl, ?_, ?_, ?_, ?_, ?_⟩
  · unfold xgbLevels; rw [hlev]; exact hlo
  · unfold xgbLevels; rw [hlev]; exact hhi
  · rw [hd]; rfl
  · have h9 : hi' ≤ d := by
      obtain ⟨tk, hk, hke⟩ := mem_onDay.mp hhi1
      obtain ⟨k, hk1, _⟩ := mem_clippedRows.mp hk
      exact hdmax tk hi' (List.mem_of_getElem? hk1) hke
    split_ifs
    · exact max_le (hlo2 _ hmem) (by linarith)
    · exact hlo2 _ hmem
  · rw [le_div_iff₀ (by linarith)]
    split_ifs <;> linarith
  · linarith
  · rw [le_div_iff₀ hpos]; exact h10

/-- **C84 (nothing predicted).** If the model predicts no clipping, everything is kept. -/
theorem C84_nothing_predicted {predict : List Features → List Bool}
    (hp : ∀ l, ∀ b ∈ predict l, b = false) {s : Series} {m : String} {out : List Bool}
    (h : xgbClipFilter predict s m = .ok out) : ∀ b ∈ out, b = true := by
  intro b hb
  obtain ⟨i, hi⟩ := List.mem_iff_getElem?.mp hb
  have hlt := (List.getElem?_eq_some_iff.mp hi).1
  rw [C82_length h] at hlt
  cases hr : s[i] with
  | mk t v =>
    have hs : s[i]? = some (t, v) := by rw [List.getElem?_eq_getElem hlt, hr]
    cases b with
    | true => rfl
    | false =>
      cases v with
      | none => rw [C82_missing_kept h hs] at hi; simp at hi
      | some x =>
        obtain ⟨f, pred, mx, mn, _, hpr, _, _, _, _, _, _, j, k, tj, tk, lo, hi', _, _, hj, _⟩ :=
          excluded_readings h hs hi
        obtain ⟨g, _, hg⟩ := xgbPredict_ok hpr
        obtain ⟨_, rfl⟩ := predictions_ok hg
        rw [List.getElem?_map] at hj
        obtain ⟨u, _, hu⟩ := Option.map_eq_some_iff.mp hj
        exfalso
        generalize hL : lastLabelLe _ u = o at hu
        cases o with
        | none => simp at hu
        | some b' =>
          simp only [Option.getD_some] at hu
          subst hu
          unfold lastLabelLe at hL
          obtain ⟨r, hr1, hr2⟩ := Option.map_eq_some_iff.mp hL
          have h1 := List.mem_of_mem_filter (List.mem_of_getLast? hr1)
          have h2 := (List.of_mem_zip (a := r.1) (b := r.2) h1).2
          have h3 := hp _ _ h2
          rw [hr2] at h3
          simp at h3

/-- **C84 (constant series).** A series whose valid readings are all equal is kept, whatever the model
predicts. -/
theorem C84_constant_kept {predict : List Features → List Bool} {s : Series} {c : ℚ}
    (hc : ∀ t x, (t, some x) ∈ s → x = c) {m : String} {out : List Bool}
    (h : xgbClipFilter predict s m = .ok out) : ∀ b ∈ out, b = true := by
  intro b hb
  obtain ⟨i, hi⟩ := List.mem_iff_getElem?.mp hb
  have hlt := (List.getElem?_eq_some_iff.mp hi).1
  rw [C82_length h] at hlt
  cases hr : s[i] with
  | mk t v =>
    have hs : s[i]? = some (t, v) := by rw [List.getElem?_eq_getElem hlt, hr]
    cases b with
    | true => rfl
    | false =>
      cases v with
      | none => rw [C82_missing_kept h hs] at hi; simp at hi
      | some x =>
        obtain ⟨f, pred, mx, mn, _, _, hmx, hmn, _, hlt, _⟩ := excluded_readings h hs hi
        have key : ∀ z ∈ valids s.values, z = c := by
          intro z hz
          unfold valids at hz
          obtain ⟨v, hv, hv2⟩ := List.mem_filterMap.mp hz
          obtain ⟨r, hr, rfl⟩ := List.mem_map.mp hv
          exact hc r.1 z (by
            simp only [id] at hv2
            rw [← hv2]; exact hr)
        rw [key mx hmx, key mn hmn] at hlt
        exact absurd hlt (lt_irrefl _)

/-- **C84 (no holes).** On one day, a reading between two excluded readings is excluded. -/
theorem C84_between {predict : List Features → List Bool} {s : Series} {m : String} {out : List Bool}
    (h : xgbClipFilter predict s m = .ok out) {i j k : Nat} {ti tj tk : Int} {x y z : ℚ}
    (hi : s[i]? = some (ti, some x)) (hj : s[j]? = some (tj, some y)) (hk : s[k]? = some (tk, some z))
    (dij : SameDay ti tj) (djk : SameDay tj tk) (hxy : x ≤ y) (hyz : y ≤ z)
    (ei : out[i]? = some false) (ek : out[k]? = some false) : out[j]? = some false := by
  obtain ⟨f, pred, _, hf, hp, rfl⟩ := xgb_ok h
  have e1 : dayOf ti = dayOf tj := dij
  have e2 : dayOf tk = dayOf tj := djk.symm
  have e3 : dailyMax (scaledS s) ti = dailyMax (scaledS s) tj := by unfold dailyMax; rw [e1]
  have e4 : dailyMax (scaledS s) tk = dailyMax (scaledS s) tj := by unfold dailyMax; rw [e2]
  rw [verdicts_get (scaledS_get hi), Option.some.injEq, Bool.not_eq_false', e1, e3,
    xgbClipped_iff] at ei
  rw [verdicts_get (scaledS_get hk), Option.some.injEq, Bool.not_eq_false', e2, e4,
    xgbClipped_iff] at ek
  rw [verdicts_get (scaledS_get hj), Option.some.injEq, Bool.not_eq_false', xgbClipped_iff]
  obtain ⟨l, hh, x', p, a1, a2, a3, a4, a5, a6, a7, a8⟩ := ei
  obtain ⟨l', hh', z', p', b1, b2, b3, b4, b5, b6, b7, b8⟩ := ek
  rw [a1, Option.some.injEq] at b1
  rw [a2, Option.some.injEq] at b2
  subst b1 b2
  obtain ⟨mx, mn, _, _, _, hlt, rfl, hnorm⟩ := norm1_some a3
  have hpos : 0 < mx - mn := by linarith
  rw [hnorm] at a4 b3
  rw [hnorm]
  simp only [Option.map_some, Option.some.injEq] at a4 b3 ⊢
  subst b3
  have h1 : (x - mn) / (mx - mn) ≤ (y - mn) / (mx - mn) :=
    div_le_div_of_nonneg_right (by linarith) hpos.le
  have h2 : (y - mn) / (mx - mn) ≤ (z - mn) / (mx - mn) :=
    div_le_div_of_nonneg_right (by linarith) hpos.le
  cases hd : dailyMax (scaledS s) tj with
  | none => rw [hd] at a4; simp [pctDailyMax, cellOp] at a4
  | some d =>
    rw [hd] at a4
    simp only [pctDailyMax, cellOp, Option.some.injEq] at a4
    obtain ⟨⟨u, hu, _⟩, _⟩ := dailyMax_some hd
    have hd0 : 0 ≤ d := (scaled_range hu).1
    refine ⟨l, hh, _, _, a1, a2, rfl, rfl, le_trans a5 h1, ?_, le_trans h2 b7, le_trans a8 h1⟩
    refine le_trans a6 ?_
    rw [← a4]
    exact div_le_div_of_nonneg_right h1 (by linarith)

/-! ### C85: a day without predicted clipping -/

/-- excluded readings up to the last day with predicted clipping -/
theorem days_with_prediction {predict : List Features → List Bool} {s : Series}
    {m : String} {out : List Bool} (h : xgbClipFilter predict s m = .ok out) {i : Nat} {t : Int} {x : ℚ}
    (hi : s[i]? = some (t, some x)) (ho : out[i]? = some false) {f : Int} {pred : List Bool}
    (hf : modeMin (stepsOf s.index) = some f) (hp : xgbPredict predict s (f / minuteNs) m = .ok pred)
    {n : Nat} {u : Int} {v : Cell} (hn : s[n]? = some (u, v)) (hpn : pred[n]? = some true)
    (htu : t ≤ u) :
    ∃ (j : Nat) (tj : Int) (lo : ℚ), s[j]? = some (tj, some lo) ∧ pred[j]? = some true ∧
      SameDay t tj ∧ lo ≤ x := by
  obtain ⟨f', pred', mx, mn, hf', hp', _, _, _, _, _, _, j, k, tj, tk, lo, hi', hj, _, hpj, _, _, hlo, _, hor⟩ :=
    excluded_readings h hi ho
  rw [hf, Option.some.injEq] at hf'
  subst hf'
  rw [hp, Except.ok.injEq] at hp'
  subst hp'
  rcases hor with hd | ⟨_, hd⟩
  · exact ⟨j, tj, lo, hj, hpj, hd, hlo⟩
  · have h1 := hd n u v hn hpn
    have h2 := dayOf_mono htu
    omega

/-- two days of two-hourly data: the first day reaches 10 with a plateau, the second just touches the
same level once -/
def twoDays : Series := regular 0 7200000000000
  [0, 4, 9, 10, 10, 10, 8, 5, 3, 2, 1, 0, 0, 4, 8, 9, 10, 9, 8, 5, 3, 2, 1, 0]

/-- a model that predicts clipping only for rows without slope at the top -/
def flatTop (l : List Features) : List Bool :=
  l.map fun x => decide (x.derivBack = 0 ∧ x.scaled = x.dayMax)

/-- **C85 (refuted).** The levels of the last day with predicted clipping are carried over to the days
after it: a reading of the second day is excluded although the model predicts no clipping on that
day (the comment says "between the max and min values found for clipping each day"). -/
theorem C85_later_days_refuted :
    xgbPredict flatTop twoDays 120 "fixed" = .ok ((List.range 24).map fun i => decide (i = 4 ∨ i = 5)) ∧
    xgbClipFilter flatTop twoDays = .ok ((List.range 24).map fun i =>
      decide (i ≠ 3 ∧ i ≠ 4 ∧ i ≠ 5 ∧ i ≠ 16)) := by
  constructor <;> decide +kernel

/-! ### non-vacuity -/

/-- the hypotheses of C84 hold for the sample: reading 4 is predicted and excluded, reading 3 only
excluded -/
example : ∃ out, xgbClipFilter flatTop twoDays = .ok out ∧ out[3]? = some false ∧
    out[4]? = some false ∧ out[2]? = some true :=
  ⟨_, C85_later_days_refuted.2, by decide, by decide, by decide⟩

example : xgbClipFilter flatTop (twoDays.map fun r => (r.1, r.2.map fun x => 1000 * x + 7)) =
    xgbClipFilter flatTop twoDays :=
  C83_unit_and_offset_independent flatTop (a := 1000) (b := 7) (by norm_num) twoDays "fixed"

example : ∃ out, xgbClipFilter flatTop twoDays = .ok out :=
  C82_total (by intro l; simp [flatTop]) (by decide +kernel) (by decide) (Or.inl rfl)

/-! ### The statements in terms of the sampling interval and the readings -/

theorem stepsBetween_eq (ts : List Int) : stepsBetween ts = stepsOf ts := by
  induction ts with
  | nil => rfl
  | cons a l ih =>
    cases l with
    | nil => rfl
    | cons b l => unfold stepsBetween stepsOf; exact congrArg ((b - a) :: ·) ih

theorem commonestStep_iff {s : Series} {f : Int} : CommonestStep (s.map Prod.fst) f ↔ modeMin (stepsOf s.index) = some f := by
  unfold CommonestStep
  rw [stepsBetween_eq]
  change f ∈ stepsOf s.index ∧ _ ↔ _
  generalize stepsOf s.index = l
  unfold modeMin
  rw [List.min?_eq_some_iff]
  simp only [List.mem_filter, List.all_eq_true, decide_eq_true_eq]
  constructor
  · rintro ⟨h1, h2⟩
    exact ⟨⟨h1, fun g hg => (h2 g hg).1⟩, fun g ⟨hg, hall⟩ => (h2 g hg).2 (le_antisymm ((h2 g hg).1) (hall f h1))⟩
  · rintro ⟨⟨h1, h2⟩, h3⟩
    exact ⟨h1, fun g hg => ⟨h2 g hg, fun e => h3 g ⟨hg, fun y hy => (h2 y hy).trans e.ge⟩⟩⟩

theorem valids_values (s : Series) : valids s.values = s.filterMap Prod.snd := by
  unfold valids Series.values
  rw [List.filterMap_map]
  rfl

/-- **C84 (soundness).** Let `mn` and `mx` be the least and greatest reading. An excluded reading `x`
lies at least a tenth of the range above `mn` and at least 90 % as high above `mn` as every other
reading of its day; and there are two readings of one day, predicted to be clipping by the model,
with `x` between the lower one and 1.0025 times the higher one (above `mn`). That day is the day of
the reading, or an earlier one if no predicted reading is on the day of the reading or later. -/
theorem C84_excluded {predict : List Features → List Bool} {s : Series} {m : String}
    {out : List Bool} (h : xgbClipFilter predict s m = .ok out) {i : Nat} {t : Int} {x : ℚ}
    (hi : s[i]? = some (t, some x)) (ho : out[i]? = some false) :
    ∃ f pred mx mn, CommonestStep (s.map Prod.fst) f ∧
      xgbPredict predict s (f / minuteNs) m = .ok pred ∧
      mx ∈ s.filterMap Prod.snd ∧ mn ∈ s.filterMap Prod.snd ∧ (∀ z ∈ s.filterMap Prod.snd, mn ≤ z ∧ z ≤ mx) ∧
      mn < mx ∧ 1/10 * (mx - mn) ≤ x - mn ∧
      (∀ u y, (u, some y) ∈ s → SameDay t u →
        (if f / minuteNs < 5 then 9/10 else 95/100) * (y - mn) ≤ x - mn) ∧
      ∃ (j k : Nat) (tj tk : Int) (lo hi : ℚ), s[j]? = some (tj, some lo) ∧
        s[k]? = some (tk, some hi) ∧ pred[j]? = some true ∧ pred[k]? = some true ∧
        SameDay tj tk ∧ lo ≤ x ∧ x - mn ≤ 10025/10000 * (hi - mn) ∧
        (SameDay t tj ∨ (tj ≤ t ∧ ∀ (n : Nat) (u : Int) (v : Cell), s[n]? = some (u, v) →
          pred[n]? = some true → dayOf u < dayOf t)) := by
  obtain ⟨f, pred, mx, mn, h1, h2⟩ := excluded_readings h hi ho
  rw [valids_values] at h2
  exact ⟨f, pred, mx, mn, commonestStep_iff.mpr h1, h2⟩

/-- **C84 (completeness).** A valid reading that the model predicts as clipping is excluded, if it is at
least a tenth of the range above the least reading and at least 96 % as high (above it, and
above a hundred-thousandth of the range) as the readings of its day. -/
theorem C84_predicted_is_excluded {predict : List Features → List Bool} {s : Series} {m : String}
    {out : List Bool} (h : xgbClipFilter predict s m = .ok out) {f : Int} {pred : List Bool}
    (hf : CommonestStep (s.map Prod.fst) f) (hp : xgbPredict predict s (f / minuteNs) m = .ok pred)
    {i : Nat} {t : Int} {x : ℚ} (hi : s[i]? = some (t, some x)) (hpi : pred[i]? = some true)
    {mx mn : ℚ} (hmx : mx ∈ s.filterMap Prod.snd) (hmn : mn ∈ s.filterMap Prod.snd)
    (hall : ∀ z ∈ s.filterMap Prod.snd, mn ≤ z ∧ z ≤ mx) (hlt : mn < mx)
    (h10 : 1/10 * (mx - mn) ≤ x - mn)
    (h96 : ∀ u y, (u, some y) ∈ s → SameDay t u →
      96/100 * (y - mn + 1/100000 * (mx - mn)) ≤ x - mn) : out[i]? = some false := by
  rw [← valids_values] at hmx hmn hall
  exact predicted_readings h (commonestStep_iff.mp hf) hp hi hpi hmx hmn hall hlt h10 h96

/-- **C85 (partial).** Up to the last day with predicted clipping, an excluded reading has readings
predicted as clipping on its own day. (Missing from the full claim: later days, see the
refutation.) -/
theorem C85_only_days_with_prediction_partial {predict : List Features → List Bool} {s : Series}
    {m : String} {out : List Bool} (h : xgbClipFilter predict s m = .ok out) {i : Nat} {t : Int} {x : ℚ}
    (hi : s[i]? = some (t, some x)) (ho : out[i]? = some false) {f : Int} {pred : List Bool}
    (hf : CommonestStep (s.map Prod.fst) f) (hp : xgbPredict predict s (f / minuteNs) m = .ok pred)
    {n : Nat} {u : Int} {v : Cell} (hn : s[n]? = some (u, v)) (hpn : pred[n]? = some true)
    (htu : t ≤ u) :
    ∃ (j : Nat) (tj : Int) (lo : ℚ), s[j]? = some (tj, some lo) ∧ pred[j]? = some true ∧
      SameDay t tj ∧ lo ≤ x :=
  days_with_prediction h hi ho (commonestStep_iff.mp hf) hp hn hpn htu

end Verif.Clip
