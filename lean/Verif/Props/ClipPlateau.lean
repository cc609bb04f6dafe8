import Verif.Lemmas.ClipDetect
import Verif.Props.ClipLogic

/-! # What the logic-based clipping filter excludes (C78-C80)

Stated for complete, regularly sampled series (every ten minutes or less often) without frozen
days. -/

namespace Verif.Clip

open Verif Spec

/-! ### the levels of a day -/

theorem mem_clip {t0 f : Int} {vals : List ℚ} {det : List Bool} {u : Int} {y : ℚ} :
    (u, some y) ∈ ((regular t0 f vals).zip det).map
        (fun x => (x.1.1, if x.2 then x.1.2 else none)) ↔
      ∃ j : Nat, vals[j]? = some y ∧ det[j]? = some true ∧ u = t0 + (j : Int) * f := by
  rw [List.mem_map]
  constructor
  · rintro ⟨⟨r, b⟩, hx, he⟩
    obtain ⟨j, hj⟩ := List.mem_iff_getElem?.mp hx
    obtain ⟨h1, h2⟩ := List.getElem?_zip_eq_some.mp hj
    obtain ⟨x, hx', rfl⟩ := regular_get_inv h1
    simp only [Prod.mk.injEq] at he
    cases b with
    | false => simp at he
    | true =>
      simp only [if_true, Option.some.injEq] at he
      exact ⟨j, by rw [hx', he.2], h2, he.1.symm⟩
  · rintro ⟨j, h1, h2, rfl⟩
    refine ⟨((t0 + (j : Int) * f, some y), true), ?_, by simp⟩
    apply List.mem_of_getElem? (i := j)
    exact List.getElem?_zip_eq_some.mpr ⟨regular_get h1, h2⟩

theorem mem_dayClip {t0 f : Int} {vals : List ℚ} {det : List Bool} {d : Int} {y : ℚ} :
    y ∈ valids (onDay (((regular t0 f vals).zip det).map
        fun x => (x.1.1, if x.2 then x.1.2 else none)) d) ↔
      ∃ j : Nat, vals[j]? = some y ∧ det[j]? = some true ∧ dayOf (t0 + (j : Int) * f) = d := by
  rw [mem_validsC]
  unfold onDay
  rw [List.mem_map]
  constructor
  · rintro ⟨⟨u, c⟩, hx, he⟩
    simp only at he
    subst he
    obtain ⟨h1, h2⟩ := List.mem_filter.mp hx
    obtain ⟨j, a, b, rfl⟩ := mem_clip.mp h1
    exact ⟨j, a, b, by simpa using h2⟩
  · rintro ⟨j, a, b, rfl⟩
    exact ⟨(t0 + (j : Int) * f, some y), List.mem_filter.mpr
      ⟨mem_clip.mpr ⟨j, a, b, rfl⟩, by simp⟩, rfl⟩

/-- the run of the filter on a regular series -/
theorem run_regular {t0 f : Int} (hf : 600000000000 ≤ f) {vals : List ℚ} (hl : 10 < vals.length)
    (hv : ∀ d, Varied (dayReadings (regular t0 f vals) d)) {m : String} {c : ℚ} {k : Nat}
    {out : List Bool} (h : logicClipFilter (regular t0 f vals) m c (some k) = .ok out) :
    ∃ (det : List Bool) (L : Int → List ℚ), det.length = vals.length ∧
      (∀ i, i < vals.length → (det[i]? = some true ↔ k ≤ i + 1 ∧ InPlateau t0 f vals c k i)) ∧
      (∀ d y, y ∈ L d ↔ ∃ j : Nat, vals[j]? = some y ∧ det[j]? = some true ∧
        dayOf (t0 + (j : Int) * f) = d) ∧
      (∀ (i : Nat) (x : ℚ), vals[i]? = some x → ∃ b,
        out[i]? = some (!(inBand (L (dayOf (t0 + (i : Int) * f))).min?
            (L (dayOf (t0 + (i : Int) * f))).max? (some x) || b)) ∧
        (b = true → (∃ q, robustQuantile (vals.map some) (99/100) = some q ∧ q ≤ x) ∧
          (4 : ℚ) * vals.length < 100 * (out.count false : Nat) ∧
          ∃ (n : Nat) (z : ℚ), vals[n]? = some z ∧
            inBand (L (dayOf (t0 + (n : Int) * f))).min? (L (dayOf (t0 + (n : Int) * f))).max?
              (some z) = true)) := by
  have hpos : 0 < f := by omega
  have hf' : 10 * minuteNs ≤ f := hf
  have hs := regular_sorted (t0 := t0) hpos vals
  obtain ⟨det, hd, hlen, hdet⟩ := detect_regular hf' (by omega) hv m c k
  set clip := ((regular t0 f vals).zip det).map
    (fun x => (x.1.1, if x.2 then x.1.2 else none)) with hclip
  refine ⟨det, fun d => valids (onDay clip d), hlen, hdet, fun d y => mem_dayClip, ?_⟩
  intro i x hx
  obtain ⟨f', det', clip', e1, e2, e3, ho⟩ := verdict hs h (regular_get (t0 := t0) (f := f) hx)
  rw [modeMin_regular (by omega), Option.some.injEq] at e1
  subst e1
  rw [hd, Except.ok.injEq] at e2
  subst e2
  have e4 := clipPower_ok e3
  rw [← hclip] at e4
  subst e4
  have hcl : powerCleaned (regular t0 f vals) = vals.map some := by
    rw [powerCleaned_eq hs.nodup]
    apply List.ext_getElem?
    intro n
    rw [List.getElem?_map, List.getElem?_map]
    cases hn : vals[n]? with
    | none =>
      have : (regular t0 f vals)[n]? = none := by
        rw [List.getElem?_eq_none_iff, length_regular]
        exact List.getElem?_eq_none_iff.mp hn
      rw [this]; rfl
    | some z =>
      rw [regular_get hn]
      simp only [Option.map_some]
      rw [not_frozen_of_varied (by rw [valids_onDay]; exact hv _)]
      simp
  rw [hcl, not_frozen_of_varied (by rw [valids_onDay]; exact hv _)] at ho
  simp only [Bool.false_eq_true, if_false] at ho
  have hdl : ∀ d, dayLevels f clip d = ((valids (onDay clip d)).min?, (valids (onDay clip d)).max?) := by
    intro d; unfold dayLevels; simp only; rw [if_pos hf']
  refine ⟨_, by rw [ho, hdl], ?_⟩
  intro hb
  rw [Bool.and_eq_true] at hb
  obtain ⟨hb1, hb2⟩ := hb
  constructor
  · cases hq : robustQuantile (vals.map some) (99/100) with
    | none => rw [hq] at hb2; simp [cellCmp] at hb2
    | some q => rw [hq] at hb2; exact ⟨q, rfl, by simpa [cellCmp] using hb2⟩
  · have hout : out = (applyOverall (powerCleaned (regular t0 f vals))
        (bandMask f (regular t0 f vals) clip)
        (clippedOf (regular t0 f vals) (bandMask f (regular t0 f vals) clip))).map (!·) := by
      obtain ⟨f2, det2, clip2, a1, a2, a3, a4⟩ := logic_ok h
      rw [modeMin_regular (by omega), Option.some.injEq] at a1
      subst a1
      rw [hd, Except.ok.injEq] at a2
      subst a2
      have a5 := clipPower_ok a3
      rw [← hclip] at a5
      subst a5
      exact a4
    have hcount : ∀ (mask : List Bool) (l : List Cell) (g : Cell → Bool), mask.length = l.length →
        mask.count true ≤ (((mask.zip l).map fun x => x.1 || g x.2).map (!·)).count false := by
      intro mask
      induction mask with
      | nil => intro l g _; simp
      | cons a mask ih =>
        intro l g hl'
        cases l with
        | nil => simp at hl'
        | cons b l =>
          have := ih l g (by simpa using hl')
          simp only [List.zip_cons_cons, List.map_cons, List.count_cons]
          have hx : ∀ c : Bool, (if (c == false) = true then 1 else 0) ≤ 1 := by decide
          cases a
          · simp only [Bool.false_or, beq_iff_eq, Bool.false_eq_true, if_false]; omega
          · simp only [Bool.true_or, Bool.not_true, beq_self_eq_true, if_true]; omega
    have hfil : ∀ (v : List Cell) (mask : List Bool), v.length = mask.length →
        (((v.zip mask).filter fun x => x.2).map Prod.fst).length = mask.count true := by
      intro v
      induction v with
      | nil => intro mask hm; cases mask <;> simp_all
      | cons a v ih =>
        intro mask hm
        cases mask with
        | nil => simp at hm
        | cons b mask =>
          have := ih mask (by simpa using hm)
          cases b <;> simp_all
    have hle : (clippedOf (regular t0 f vals) (bandMask f (regular t0 f vals) clip)).length ≤
        out.count false := by
      unfold clippedOf
      rw [hfil _ _ (by rw [length_bandMask, List.length_map]), hout, hcl]
      unfold applyOverall
      rw [if_pos hb1]
      exact hcount (bandMask f (regular t0 f vals) clip) (vals.map some)
        (fun x => cellCmp (fun a b => decide (a ≥ b)) x (robustQuantile (vals.map some) (99/100)))
        (by rw [length_bandMask, length_regular, List.length_map])
    unfold overallApplies at hb1
    cases hq1 : robustQuantile (vals.map some) (99/100) with
    | none => rw [hq1] at hb1; simp at hb1
    | some a =>
      cases hq2 : robustQuantile (clippedOf (regular t0 f vals)
          (bandMask f (regular t0 f vals) clip)) (99/100) with
      | none => rw [hq1, hq2] at hb1; simp at hb1
      | some b =>
        rw [hq1, hq2] at hb1
        simp only [Bool.and_eq_true, decide_eq_true_eq, List.length_map] at hb1
        have hn : (0 : ℚ) < vals.length := by exact_mod_cast (by omega : 0 < vals.length)
        have h4 := hb1.2
        rw [gt_iff_lt, div_mul_eq_mul_div, lt_div_iff₀ hn] at h4
        have h5 : ((clippedOf (regular t0 f vals) (bandMask f (regular t0 f vals) clip)).length : ℚ) ≤
          (out.count false : Nat) := by exact_mod_cast hle
        refine ⟨by linarith, ?_⟩
        have hpos' : 0 < (clippedOf (regular t0 f vals)
            (bandMask f (regular t0 f vals) clip)).length := by
          by_contra hz
          have hz' : (clippedOf (regular t0 f vals)
            (bandMask f (regular t0 f vals) clip)).length = 0 := by omega
          rw [hz'] at h4
          simp only [Nat.cast_zero] at h4
          linarith
        obtain ⟨w, hw⟩ := List.exists_mem_of_length_pos hpos'
        unfold clippedOf at hw
        obtain ⟨⟨w', b'⟩, hw1, rfl⟩ := List.mem_map.mp hw
        obtain ⟨hw2, hw3⟩ := List.mem_filter.mp hw1
        obtain ⟨n, hn⟩ := List.mem_iff_getElem?.mp hw2
        obtain ⟨hn1, hn2⟩ := List.getElem?_zip_eq_some.mp hn
        simp only at hw3
        subst hw3
        unfold bandMask at hn2
        rw [List.getElem?_map] at hn2
        obtain ⟨r, hr, hr2⟩ := Option.map_eq_some_iff.mp hn2
        obtain ⟨z, hz, rfl⟩ := regular_get_inv hr
        refine ⟨n, z, hz, ?_⟩
        rw [hdl] at hr2
        exact hr2

theorem plateau_nonneg {t0 f : Int} {vals : List ℚ} {c : ℚ} {k i : Nat} {x : ℚ}
    (h : InPlateau t0 f vals c k i) (hx : vals[i]? = some x) : 0 ≤ x := by
  obtain ⟨j, h1, h2, _, _, h5⟩ := h
  obtain ⟨y, hy, hall⟩ := h5 i h1 h2
  rw [hx, Option.some.injEq] at hy
  subst hy
  have := hall i x hx rfl
  linarith

theorem inBand_sound {lo hi v : ℚ} (h0 : 0 ≤ lo) (hlh : lo ≤ hi)
    (h : inBand (some lo) (some hi) (some v) = true) :
    0 < hi ∧ (|v - hi| ≤ 25/1000 * hi ∨ |v - lo| ≤ 25/1000 * lo) := by
  unfold inBand at h
  simp only [Bool.or_eq_true, Bool.and_eq_true, decide_eq_true_eq] at h
  have hp : 0 < hi := by
    by_contra hz
    have hz' : hi = 0 := by linarith
    have hd : Flt.ofDiv (hi - lo) hi = .nan := by
      unfold Flt.ofDiv
      rw [if_pos hz', if_pos (by linarith)]
    rw [hd] at h
    simp [Flt.le, Flt.lt] at h
  refine ⟨hp, ?_⟩
  rcases h with (⟨⟨h1, h2⟩, h3⟩ | ⟨⟨h1, h2⟩, _⟩) | ⟨⟨h1, h2⟩, _⟩
  · left
    unfold Flt.ofDiv at h3
    rw [if_neg hp.ne'] at h3
    have h4 : (hi - lo) / hi ≤ 25/1000 := by simpa [Flt.le] using h3
    rw [div_le_iff₀ hp] at h4
    rw [abs_le]; constructor <;> linarith
  · left; rw [abs_le]; constructor <;> linarith
  · right; rw [abs_le]; constructor <;> linarith

/-- a reading inside the band of its day is close to a positive detected plateau reading -/
theorem band_near {t0 f : Int} {vals : List ℚ} {c : ℚ} {k : Nat} {det : List Bool}
    {L : Int → List ℚ}
    (hdet : ∀ i, i < vals.length → (det[i]? = some true ↔ k ≤ i + 1 ∧ InPlateau t0 f vals c k i))
    (hL : ∀ d y, y ∈ L d ↔ ∃ j : Nat, vals[j]? = some y ∧ det[j]? = some true ∧
        dayOf (t0 + (j : Int) * f) = d) {t : Int} {x : ℚ}
    (hband : inBand (L (dayOf t)).min? (L (dayOf t)).max? (some x) = true) :
    ∃ (j : Nat) (y : ℚ), vals[j]? = some y ∧ SameDay t (t0 + (j : Int) * f) ∧ k ≤ j + 1 ∧
      InPlateau t0 f vals c k j ∧ 0 < y ∧ |x - y| ≤ 25/1000 * y := by
  cases hmn : (L (dayOf t)).min? with
  | none => rw [hmn] at hband; simp [inBand] at hband
  | some lo =>
    cases hmx : (L (dayOf t)).max? with
    | none => rw [hmn, hmx] at hband; simp [inBand] at hband
    | some hi =>
      rw [hmn, hmx] at hband
      obtain ⟨hlom, hlo⟩ := List.min?_eq_some_iff.mp hmn
      obtain ⟨hhim, hhi⟩ := List.max?_eq_some_iff.mp hmx
      obtain ⟨j1, p1, p2, p3⟩ := (hL _ _).mp hlom
      obtain ⟨j2, q1, q2, q3⟩ := (hL _ _).mp hhim
      obtain ⟨hk1, hp1⟩ := (hdet j1 (List.getElem?_eq_some_iff.mp p1).1).mp p2
      obtain ⟨hk2, hp2⟩ := (hdet j2 (List.getElem?_eq_some_iff.mp q1).1).mp q2
      obtain ⟨hpos, hh⟩ := inBand_sound (plateau_nonneg hp1 p1) (hlo hi hhim) hband
      rcases hh with hh | hh
      · exact ⟨j2, hi, q1, q3.symm, hk2, hp2, hpos, hh⟩
      · refine ⟨j1, lo, p1, p3.symm, hk1, hp1, ?_, hh⟩
        obtain ⟨j, a1, a2, _, _, a5⟩ := hp1
        obtain ⟨y, hy, hall⟩ := a5 j1 a1 a2
        rw [p1, Option.some.injEq] at hy
        subst hy
        have := hall j2 hi q1 (by rw [SameDay]; exact p3.trans q3.symm)
        linarith

theorem inBand_top {lo hi : ℚ} (hp : 0 < hi) (hlh : lo ≤ hi) :
    inBand (some lo) (some hi) (some hi) = true := by
  unfold inBand
  simp only [Bool.or_eq_true, Bool.and_eq_true, decide_eq_true_eq]
  unfold Flt.ofDiv
  rw [if_neg hp.ne']
  by_cases h : (hi - lo) / hi ≤ 25/1000
  · left; left
    exact ⟨⟨hlh, le_refl _⟩, by simpa [Flt.le] using h⟩
  · left; right
    exact ⟨⟨by linarith, by linarith⟩, by simpa [Flt.lt] using h⟩

theorem inBand_tight {lo hi v : ℚ} (hp : 0 < hi) (h1 : lo ≤ v) (h2 : v ≤ hi)
    (h3 : hi - lo ≤ 25/1000 * hi) : inBand (some lo) (some hi) (some v) = true := by
  unfold inBand
  simp only [Bool.or_eq_true, Bool.and_eq_true, decide_eq_true_eq]
  unfold Flt.ofDiv
  rw [if_neg hp.ne']
  left; left
  refine ⟨⟨h1, h2⟩, ?_⟩
  have : (hi - lo) / hi ≤ 25/1000 := by rw [div_le_iff₀ hp]; exact h3
  simpa [Flt.le] using this

/-! ### C78 (plateau-free series) -/

/-- **C78 (no plateau).** If no `k` consecutive readings are flat, every reading is kept. -/
theorem C78_no_plateau {t0 f : Int} (hf : 600000000000 ≤ f) {vals : List ℚ} (hl : 10 < vals.length)
    (hv : ∀ d, Varied (dayReadings (regular t0 f vals) d)) {m : String} {c : ℚ} {k : Nat}
    {out : List Bool} (h : logicClipFilter (regular t0 f vals) m c (some k) = .ok out)
    (hno : ∀ j, j + k ≤ vals.length → ¬ Flat c ((vals.drop j).take k)) : ∀ b ∈ out, b = true := by
  have hf' : 10 * minuteNs ≤ f := hf
  obtain ⟨det, hd, hlen, hdet⟩ := detect_regular hf' (by omega) hv m c k
  obtain ⟨f2, det2, clip2, a1, a2, a3, rfl⟩ := logic_ok h
  rw [modeMin_regular (by omega), Option.some.injEq] at a1
  subst a1
  rw [hd, Except.ok.injEq] at a2
  subst a2
  apply out_of_no_detection a3
  intro b hb
  obtain ⟨i, hi⟩ := List.mem_iff_getElem?.mp hb
  have hlt := (List.getElem?_eq_some_iff.mp hi).1
  cases b with
  | false => rfl
  | true =>
    obtain ⟨_, j, _, _, h3, h4, _⟩ := (hdet i (by omega)).mp hi
    exact absurd h4 (hno j h3)

/-! ### C80: what is excluded -/

/-- **C80 (soundness).** An excluded reading is within 2.5 % of a positive reading of the same day
that lies in a plateau; or the overall rule applies to it: it is at least the robust 99 % quantile
of all readings, more than 4 % of all readings are excluded, and there is a positive plateau
somewhere. -/
theorem C80_excluded_is_near_plateau {t0 f : Int} (hf : 600000000000 ≤ f) {vals : List ℚ}
    (hl : 10 < vals.length) (hv : ∀ d, Varied (dayReadings (regular t0 f vals) d)) {m : String}
    {c : ℚ} {k : Nat} {out : List Bool}
    (h : logicClipFilter (regular t0 f vals) m c (some k) = .ok out) {i : Nat} {x : ℚ}
    (hx : vals[i]? = some x) (hout : out[i]? = some false) :
    (∃ (j : Nat) (y : ℚ), vals[j]? = some y ∧ SameDay (t0 + (i : Int) * f) (t0 + (j : Int) * f) ∧
      k ≤ j + 1 ∧ InPlateau t0 f vals c k j ∧ 0 < y ∧ |x - y| ≤ 25/1000 * y) ∨
    ((∃ q, robustQuantile (vals.map some) (99/100) = some q ∧ q ≤ x) ∧
      (4 : ℚ) * vals.length < 100 * (out.count false : Nat) ∧
      ∃ (j : Nat) (y : ℚ), vals[j]? = some y ∧ k ≤ j + 1 ∧ InPlateau t0 f vals c k j ∧ 0 < y) := by
  obtain ⟨det, L, hlen, hdet, hL, hrow⟩ := run_regular hf hl hv h
  obtain ⟨b, hb, hb'⟩ := hrow i x hx
  rw [hout, Option.some.injEq] at hb
  cases b with
  | true =>
    right
    obtain ⟨h1, h2, n, z, _, h3⟩ := hb' rfl
    obtain ⟨j, y, a1, _, a3, a4, a5, _⟩ := band_near hdet hL h3
    exact ⟨h1, h2, j, y, a1, a3, a4, a5⟩
  | false =>
    left
    rw [Bool.or_false] at hb
    have hband : inBand (L (dayOf (t0 + (i : Int) * f))).min?
        (L (dayOf (t0 + (i : Int) * f))).max? (some x) = true := by
      cases hh : inBand (L (dayOf (t0 + (i : Int) * f))).min?
        (L (dayOf (t0 + (i : Int) * f))).max? (some x)
      · rw [hh] at hb; simp at hb
      · rfl
    exact band_near hdet hL hband

/-- **C80 (top of the plateau).** Whenever a positive reading lies in a plateau (and is not among
the first `k - 1` readings of the series), a plateau reading of that day at least as high is
excluded. -/
theorem C80_top_is_excluded {t0 f : Int} (hf : 600000000000 ≤ f) {vals : List ℚ}
    (hl : 10 < vals.length) (hv : ∀ d, Varied (dayReadings (regular t0 f vals) d)) {m : String}
    {c : ℚ} {k : Nat} {out : List Bool}
    (h : logicClipFilter (regular t0 f vals) m c (some k) = .ok out) {i : Nat} {x : ℚ}
    (hx : vals[i]? = some x) (hpos : 0 < x) (hi : k ≤ i + 1) (hp : InPlateau t0 f vals c k i) :
    ∃ (j : Nat) (y : ℚ), vals[j]? = some y ∧ SameDay (t0 + (i : Int) * f) (t0 + (j : Int) * f) ∧
      InPlateau t0 f vals c k j ∧ x ≤ y ∧ out[j]? = some false := by
  obtain ⟨det, L, hlen, hdet, hL, hrow⟩ := run_regular hf hl hv h
  have hxl : x ∈ L (dayOf (t0 + (i : Int) * f)) :=
    (hL _ _).mpr ⟨i, hx, (hdet i (List.getElem?_eq_some_iff.mp hx).1).mpr ⟨hi, hp⟩, rfl⟩
  cases hmx : (L (dayOf (t0 + (i : Int) * f))).max? with
  | none => rw [List.max?_eq_none_iff] at hmx; rw [hmx] at hxl; simp at hxl
  | some hi' =>
    obtain ⟨hhim, hhi⟩ := List.max?_eq_some_iff.mp hmx
    obtain ⟨j, q1, q2, q3⟩ := (hL _ _).mp hhim
    have hp2 := ((hdet j (List.getElem?_eq_some_iff.mp q1).1).mp q2).2
    refine ⟨j, hi', q1, q3.symm, hp2, hhi x hxl, ?_⟩
    obtain ⟨b, hb, _⟩ := hrow j hi' q1
    rw [hb, q3, hmx]
    cases hmn : (L (dayOf (t0 + (i : Int) * f))).min? with
    | none => rw [List.min?_eq_none_iff] at hmn; rw [hmn] at hxl; simp at hxl
    | some lo =>
      obtain ⟨hlom, hlo⟩ := List.min?_eq_some_iff.mp hmn
      rw [inBand_top (lt_of_lt_of_le hpos (hhi x hxl)) (hlo hi' hhim)]
      rfl

/-- **C80 (tight plateaus).** If all plateau readings of the day lie within 2.5 % of the highest one,
every reading of that day between two detected plateau readings is excluded, detected or not. -/
theorem C80_tight_plateau_is_excluded {t0 f : Int} (hf : 600000000000 ≤ f) {vals : List ℚ}
    (hl : 10 < vals.length) (hv : ∀ d, Varied (dayReadings (regular t0 f vals) d)) {m : String}
    {c : ℚ} {k : Nat} {out : List Bool}
    (h : logicClipFilter (regular t0 f vals) m c (some k) = .ok out) {i a b : Nat} {x ya yb : ℚ}
    (hx : vals[i]? = some x) (ha : vals[a]? = some ya) (hb : vals[b]? = some yb)
    (hda : SameDay (t0 + (a : Int) * f) (t0 + (i : Int) * f))
    (hdb : SameDay (t0 + (b : Int) * f) (t0 + (i : Int) * f))
    (hka : k ≤ a + 1) (hkb : k ≤ b + 1)
    (hpa : InPlateau t0 f vals c k a) (hpb : InPlateau t0 f vals c k b)
    (hax : ya ≤ x) (hxb : x ≤ yb) (hpos : 0 < x)
    (htight : ∀ (j n : Nat) (y z : ℚ), vals[j]? = some y → vals[n]? = some z →
      SameDay (t0 + (j : Int) * f) (t0 + (i : Int) * f) →
      SameDay (t0 + (n : Int) * f) (t0 + (i : Int) * f) →
      InPlateau t0 f vals c k j → InPlateau t0 f vals c k n → z - y ≤ 25/1000 * z) :
    out[i]? = some false := by
  obtain ⟨det, L, hlen, hdet, hL, hrow⟩ := run_regular hf hl hv h
  have hal : ya ∈ L (dayOf (t0 + (i : Int) * f)) :=
    (hL _ _).mpr ⟨a, ha, (hdet a (List.getElem?_eq_some_iff.mp ha).1).mpr ⟨hka, hpa⟩, hda⟩
  have hbl : yb ∈ L (dayOf (t0 + (i : Int) * f)) :=
    (hL _ _).mpr ⟨b, hb, (hdet b (List.getElem?_eq_some_iff.mp hb).1).mpr ⟨hkb, hpb⟩, hdb⟩
  obtain ⟨r, hr, _⟩ := hrow i x hx
  rw [hr]
  cases hmx : (L (dayOf (t0 + (i : Int) * f))).max? with
  | none => rw [List.max?_eq_none_iff] at hmx; rw [hmx] at hal; simp at hal
  | some hi' =>
    cases hmn : (L (dayOf (t0 + (i : Int) * f))).min? with
    | none => rw [List.min?_eq_none_iff] at hmn; rw [hmn] at hal; simp at hal
    | some lo =>
      obtain ⟨hhim, hhi⟩ := List.max?_eq_some_iff.mp hmx
      obtain ⟨hlom, hlo⟩ := List.min?_eq_some_iff.mp hmn
      obtain ⟨j1, p1, p2, p3⟩ := (hL _ _).mp hlom
      obtain ⟨j2, q1, q2, q3⟩ := (hL _ _).mp hhim
      have hp1 := ((hdet j1 (List.getElem?_eq_some_iff.mp p1).1).mp p2).2
      have hp2 := ((hdet j2 (List.getElem?_eq_some_iff.mp q1).1).mp q2).2
      have h1 : lo ≤ x := le_trans (hlo ya hal) hax
      have h2 : x ≤ hi' := le_trans hxb (hhi yb hbl)
      rw [inBand_tight (lt_of_lt_of_le hpos h2) h1 h2 (htight j1 j2 lo hi' p1 q1 p3 q3 hp1 hp2)]
      rfl

/-- **C80 (default window).** Left to itself the filter uses a window of five readings for
single-axis tracking sampled more often than every 30 minutes, and of three readings otherwise. -/
theorem C80_default_window {t0 f : Int} (hf : 600000000000 ≤ f) {vals : List ℚ}
    (hl : 10 < vals.length) (m : String) (c : ℚ) :
    logicClipFilter (regular t0 f vals) m c none = logicClipFilter (regular t0 f vals) m c
      (some (if m = "single_axis_tracking" ∧ f < 1800000000000 then 5 else 3)) := by
  have hf' : 10 * minuteNs ≤ f := hf
  unfold logicClipFilter
  rw [modeMin_regular (by omega)]
  unfold detect rollDefault
  simp only [Option.getD_none, Option.getD_some, hf', if_true]
  rfl

/-! ### C79: the cutoff -/

theorem flat_mono {c c' : ℚ} (hc : c ≤ c') {w : List ℚ} (h : Flat c w) : Flat c' w := by
  obtain ⟨mx, a, mn, b, hall, hne, hlt⟩ := h
  exact ⟨mx, a, mn, b, hall, hne, lt_of_lt_of_le hlt hc⟩

theorem inPlateau_mono {t0 f : Int} {vals : List ℚ} {c c' : ℚ} (hc : c ≤ c') {k i : Nat}
    (h : InPlateau t0 f vals c k i) : InPlateau t0 f vals c' k i := by
  obtain ⟨j, a, b, d, e, g⟩ := h
  exact ⟨j, a, b, d, flat_mono hc e, g⟩

/-- **C79 (refuted).** "The higher the cutoff, the more values in the dataset that will be determined
as clipping" does not hold reading by reading: raising the cutoff from 2 to 30 turns two excluded
readings into kept ones, because the wider detection pushes the day's levels apart. -/
theorem C79_cutoff_monotone_refuted :
    logicClipFilter (regular 0 3600000000000 [0, 2, 6, 9, 101/10, 201/20, 10, 8, 5, 3, 1, 0])
        "fixed" 2 = .ok [true, true, true, true, false, false, false, true, true, true, true, true] ∧
    logicClipFilter (regular 0 3600000000000 [0, 2, 6, 9, 101/10, 201/20, 10, 8, 5, 3, 1, 0])
        "fixed" 30 = .ok [true, true, true, true, false, true, true, false, true, true, true, true] := by
  constructor <;> decide +kernel

/-- **C79 (partial).** What does hold: if the filter excludes anything at some cutoff, it excludes
something at every higher cutoff. (Missing from the documented claim: the excluded readings need
not be the same, see `C79_cutoff_monotone_refuted`.) -/
theorem C79_excludes_something_partial {t0 f : Int} (hf : 600000000000 ≤ f) {vals : List ℚ}
    (hl : 10 < vals.length) (hv : ∀ d, Varied (dayReadings (regular t0 f vals) d)) {m : String}
    {c c' : ℚ} (hc : c ≤ c') {k : Nat} {out out' : List Bool}
    (h : logicClipFilter (regular t0 f vals) m c (some k) = .ok out)
    (h' : logicClipFilter (regular t0 f vals) m c' (some k) = .ok out')
    (hex : false ∈ out) : false ∈ out' := by
  obtain ⟨i, hi⟩ := List.mem_iff_getElem?.mp hex
  have hil := (List.getElem?_eq_some_iff.mp hi).1
  rw [C75_length h, length_regular] at hil
  have key : ∃ (j : Nat) (y : ℚ), vals[j]? = some y ∧ k ≤ j + 1 ∧ InPlateau t0 f vals c k j ∧ 0 < y := by
    rcases C80_excluded_is_near_plateau hf hl hv h (List.getElem?_eq_getElem hil) hi with
      ⟨j, y, a, _, b, d, e, _⟩ | ⟨_, _, j, y, a, b, d, e⟩
    · exact ⟨j, y, a, b, d, e⟩
    · exact ⟨j, y, a, b, d, e⟩
  obtain ⟨j, y, a, b, d, e⟩ := key
  obtain ⟨n, _, _, _, _, _, hn⟩ := C80_top_is_excluded hf hl hv h' a e b (inPlateau_mono hc d)
  exact List.mem_of_getElem? hn

/-- **C79 (detection).** On every series, a reading at which a plateau is detected with one cutoff is
also detected with every higher one. -/
theorem C79_detection_monotone_partial {s : Series} {m : String} {c c' : ℚ} (hc : c ≤ c')
    {k : Option Nat} {f : Int} {det det' : List Bool} (h : detect s m c k f = .ok det)
    (h' : detect s m c' k f = .ok det') {i : Nat} (hi : det[i]? = some true) :
    det'[i]? = some true := by
  obtain ⟨g, hg, hm⟩ := detect_ok h
  obtain ⟨g', hg', hm'⟩ := detect_ok h'
  rw [hg, Except.ok.injEq] at hg'
  subst hg'
  set kk := k.getD (rollDefault m f)
  have h1 := congrArg (fun l => l[i]?) hm
  have h2 := congrArg (fun l => l[i]?) hm'
  simp only [List.getElem?_map, hi, Option.map_some] at h1
  obtain ⟨t, ht, ht'⟩ := Option.map_eq_some_iff.mp h1
  obtain ⟨r, hr, rfl⟩ := Option.map_eq_some_iff.mp ht
  simp only [List.getElem?_map, hr, Option.map_some] at h2
  -- the last label at or before the reading is the same for both cutoffs
  have hsame : ∃ n, ∃ hn : n < g.length,
      lastLabelLe (gridFlags kk c g) r.1 = ((gridFlags kk c g)[n]?).map Prod.snd ∧
      lastLabelLe (gridFlags kk c' g) r.1 = ((gridFlags kk c' g)[n]?).map Prod.snd := by
    have hl1 : (gridFlags kk c g).length = g.length := by
      have := congrArg List.length (fst_gridFlags kk c g); simpa [keys] using this
    have hl2 : (gridFlags kk c' g).length = g.length := by
      have := congrArg List.length (fst_gridFlags kk c' g); simpa [keys] using this
    have gen : ∀ (K K' : List (Int × Bool)), K.map Prod.fst = K'.map Prod.fst →
        (lastLabelLe K r.1).isSome → ∃ n, n < K.length ∧
          lastLabelLe K r.1 = (K[n]?).map Prod.snd ∧ lastLabelLe K' r.1 = (K'[n]?).map Prod.snd := by
      intro K
      induction K with
      | nil => intro K' _ hs; simp [lastLabelLe] at hs
      | cons a K ih =>
        intro K' he hs
        cases K' with
        | nil => simp at he
        | cons a' K' =>
          simp only [List.map_cons, List.cons.injEq] at he
          by_cases hsK : (lastLabelLe K r.1).isSome
          · obtain ⟨n, hn, e1, e2⟩ := ih K' he.2 hsK
            have cons_eq : ∀ (a : Int × Bool) (K : List (Int × Bool)), (lastLabelLe K r.1).isSome →
                lastLabelLe (a :: K) r.1 = lastLabelLe K r.1 := by
              intro a K hK
              unfold lastLabelLe at hK ⊢
              rw [Option.isSome_map, List.getLast?_isSome] at hK
              rw [List.filter_cons]
              split_ifs
              · rw [List.getLast?_cons_of_ne_nil hK]
              · rfl
            have hsK' : (lastLabelLe K' r.1).isSome := by
              rw [lastLabelLe_isSome] at hsK ⊢
              rw [← he.2]; exact hsK
            refine ⟨n + 1, by simpa using hn, ?_, ?_⟩
            · rw [cons_eq a K hsK, e1]; simp
            · rw [cons_eq a' K' hsK', e2]; simp
          · have hsK' : ¬ (lastLabelLe K' r.1).isSome := by
              rw [lastLabelLe_isSome] at hsK ⊢
              rw [← he.2]; exact hsK
            have nil_of : ∀ K : List (Int × Bool), ¬ (lastLabelLe K r.1).isSome →
                K.filter (fun x => decide (x.1 ≤ r.1)) = [] := by
              intro K hK
              unfold lastLabelLe at hK
              rw [Option.isSome_map, List.getLast?_isSome, not_not] at hK
              exact hK
            have ha : a.1 ≤ r.1 := by
              by_contra hn
              apply hsK
              unfold lastLabelLe at hs ⊢
              rw [List.filter_cons, if_neg (by simpa using hn)] at hs
              exact hs
            refine ⟨0, by simp, ?_, ?_⟩
            · unfold lastLabelLe
              rw [List.filter_cons, if_pos (by simpa using ha), nil_of K hsK]; simp
            · unfold lastLabelLe
              rw [List.filter_cons, if_pos (by rw [← he.1]; simpa using ha), nil_of K' hsK']; simp
    obtain ⟨n, hn, e1, e2⟩ := gen (gridFlags kk c g) (gridFlags kk c' g)
      (by rw [fst_gridFlags, fst_gridFlags]) (by
        rw [ht']; rfl)
    exact ⟨n, by omega, e1, e2⟩
  obtain ⟨n, hn, e1, e2⟩ := hsame
  obtain ⟨b, hb, hiff⟩ := gridFlags_mem (k := kk) (c := c) hn
  obtain ⟨b', hb', hiff'⟩ := gridFlags_mem (k := kk) (c := c') hn
  rw [hb] at e1
  rw [hb'] at e2
  simp only [Option.map_some] at e1 e2
  rw [e1, Option.some.injEq] at ht'
  obtain ⟨q1, j, q2, q3, w, q4, q5, q6⟩ := hiff.mp ht'
  have hbt : b' = true := hiff'.mpr ⟨q1, j, q2, q3, w, q4, q5, flat_mono hc q6⟩
  rw [e2, hbt] at h2
  cases hd : det'[i]? with
  | none => rw [hd] at h2; simp at h2
  | some d => rw [hd] at h2; simp at h2; rw [← h2]

/-! ### non-vacuity and findings -/

/-- **C80 (refuted at the start).** The restriction to readings after the first `k - 1` is needed: a
plateau in the first three readings leaves the first two of them in, while the same plateau later
in the series is found. -/
theorem C80_first_readings_refuted :
    logicClipFilter (regular 0 3600000000000
        [5, 5005/1000, 501/100, 8, 3, 1, 2, 6, 4, 2, 1, 0]) "fixed" (21/100) (some 3) =
      .ok [true, true, false, true, true, true, true, true, true, true, true, true] ∧
    logicClipFilter (regular 0 3600000000000
        [0, 1, 5, 5005/1000, 501/100, 8, 3, 1, 2, 6, 4, 2, 1, 0]) "fixed" (21/100) (some 3) =
      .ok [true, true, false, false, false, true, true, true, true, true, true, true, true,
        true] := by
  constructor <;> decide +kernel


/-- the sample day meets the hypotheses: it varies, and readings 8 to 12 lie in a plateau -/
example : (∀ d, Varied (dayReadings (regular 0 3600000000000 sampleDay) d)) ∧
    InPlateau 0 3600000000000 sampleDay (2/10) 3 10 ∧ ¬ InPlateau 0 3600000000000 sampleDay (2/10) 3 6 := by
  refine ⟨?_, ?_, ?_⟩
  · intro d
    by_cases h : d = 0
    · subst h
      unfold Varied
      decide +kernel
    · have : dayReadings (regular 0 3600000000000 sampleDay) d = [] := by
        unfold dayReadings
        rw [List.filterMap_eq_nil_iff]
        intro r hr
        obtain ⟨h1, h2⟩ := List.mem_filter.mp hr
        exfalso
        obtain ⟨i, x, hx, rfl⟩ := mem_regular.mp h1
        have hi : i < 20 := (List.getElem?_eq_some_iff.mp hx).1
        simp only [decide_eq_true_eq] at h2
        apply h
        rw [← h2]
        omega
      rw [this]
      constructor <;> norm_num
  · refine ⟨9, by omega, by omega, by decide, ?_, ?_⟩
    · exact ⟨10, by decide +kernel, 10, by decide +kernel, by decide +kernel, by norm_num, by norm_num⟩
    · intro n h1 h2
      have hv : ∀ (j : Nat) (y : ℚ), sampleDay[j]? = some y → y ≤ 10 := by
        intro j y hy
        have hm := List.mem_of_getElem? hy
        revert y
        have : ∀ y ∈ sampleDay, y ≤ 10 := by decide +kernel
        intro y _ hm
        exact this y hm
      refine ⟨10, ?_, fun j y hy _ => by have := hv j y hy; linarith⟩
      have : n = 9 ∨ n = 10 ∨ n = 11 := by omega
      rcases this with rfl | rfl | rfl <;> decide +kernel
  · rintro ⟨j, h1, h2, h3, ⟨mx, hmx, mn, hmn, hall, _, hlt⟩, _⟩
    have : j = 4 ∨ j = 5 ∨ j = 6 := by omega
    have key : ∀ w : List ℚ, ∀ lo hi : ℚ, lo ∈ w → hi ∈ w → (∀ x ∈ w, mn ≤ x ∧ x ≤ mx) →
        hi ≤ mx ∧ mn ≤ lo := fun w lo hi a b hw => ⟨(hw hi b).2, (hw lo a).1⟩
    rcases this with rfl | rfl | rfl
    all_goals
      simp [sampleDay] at hmx hmn hall
      rcases hmx with rfl | rfl | rfl <;> rcases hmn with rfl | rfl | rfl <;>
        first
          | (norm_num at hall; done)
          | (norm_num at hlt; done)

end Verif.Clip
