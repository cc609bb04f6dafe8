import Verif.Lemmas.ClipLogic
import Verif.Spec.ClipLogic
import Verif.Lemmas.Percentile

/-! Detection on a complete regular series, and the absence of detections. -/

namespace Verif.Clip

open Verif Spec

theorem lastLabelLe_of_mem {α : Type} {K : List (Int × α)} (hs : StrictSorted (K.map Prod.fst))
    {t : Int} {b : α} (h : (t, b) ∈ K) : lastLabelLe K t = some b := by
  obtain ⟨l1, l2, rfl⟩ := List.append_of_mem h
  unfold lastLabelLe
  rw [List.filter_append, List.filter_cons]
  simp only [le_refl, decide_true, if_true]
  have h2 : l2.filter (fun r => decide (r.1 ≤ t)) = [] := by
    rw [List.filter_eq_nil_iff]
    intro r hr
    rw [List.map_append, List.map_cons] at hs
    have := (List.pairwise_cons.mp (List.pairwise_append.mp hs).2.1).1 r.1
      (List.mem_map_of_mem hr)
    simpa using this
  rw [h2]
  simp

theorem mem_validsC {l : List Cell} {v : ℚ} : v ∈ valids l ↔ some v ∈ l := by
  unfold valids
  simp [List.mem_filterMap]

theorem length_valids_le (l : List Cell) : (valids l).length ≤ l.length := by
  unfold valids; exact List.length_filterMap_le _ _

theorem valids_length_eq {l : List Cell} (h : (valids l).length = l.length) :
    l = (valids l).map some := by
  induction l with
  | nil => rfl
  | cons a l ih =>
    cases a with
    | none =>
      have h1 : valids (none :: l) = valids l := rfl
      rw [h1] at h
      have := length_valids_le l
      simp at h
      omega
    | some v =>
      have h1 : valids (some v :: l) = v :: valids l := rfl
      rw [h1] at h ⊢
      rw [List.map_cons, ← ih (by simpa using h)]

theorem validsSome (l : List ℚ) : valids (l.map some) = l := by
  unfold valids; simp

theorem rangePct_lt {w : List ℚ} {c : ℚ} :
    cellCmp (fun a b => decide (a < b)) (rangePct w) (some c) = true ↔ Flat c w := by
  unfold rangePct
  cases hmx : w.max? with
  | none =>
    have : w = [] := by simpa using hmx
    subst this
    simp [cellCmp, Flat]
  | some mx =>
    cases hmn : w.min? with
    | none =>
      have : w = [] := by simpa using hmn
      subst this
      simp at hmx
    | some mn =>
      simp only
      have h1 := List.max?_eq_some_iff.mp hmx
      have h2 := List.min?_eq_some_iff.mp hmn
      constructor
      · intro h
        split_ifs at h with h0
        · simp [cellCmp] at h
        · exact ⟨mx, h1.1, mn, h2.1, fun x hx => ⟨h2.2 x hx, h1.2 x hx⟩, h0, by simpa [cellCmp] using h⟩
      · rintro ⟨a, ha, b, hb, hab, hne, hlt⟩
        have e1 : a = mx := le_antisymm (h1.2 a ha) (hab mx h1.1).2
        have e2 : b = mn := le_antisymm (hab mn h2.1).1 (h2.2 b hb)
        subst e1 e2
        rw [if_neg hne]
        simpa [cellCmp] using hlt

/-- row `j` of the mask of a column -/
theorem rollMask_get {v : List Cell} {k : Nat} {c : ℚ} {j : Nat} (hj : j < v.length) :
    ((rollingRange k v).map fun x => cellCmp (fun a b => decide (a < b)) x (some c))[j]? = some true ↔
      ∃ w : List ℚ, w.length = k ∧ (v.drop j).take k = w.map some ∧ Flat c w := by
  unfold rollingRange
  rw [List.getElem?_map, List.getElem?_map, List.getElem?_range hj]
  simp only [Option.map_some, Option.some.injEq]
  constructor
  · intro h
    split_ifs at h with hk
    · refine ⟨_, hk, ?_, rangePct_lt.mp h⟩
      apply valids_length_eq
      have h1 := length_valids_le ((v.drop j).take k)
      have h2 : ((v.drop j).take k).length ≤ k := by simp
      omega
    · simp [cellCmp] at h
  · rintro ⟨w, hw, he, hf⟩
    rw [he, validsSome, if_pos hw]
    exact rangePct_lt.mpr hf

theorem spreadBack_get {m : List Bool} {k i : Nat} (hi : i < m.length) :
    (spreadBack k m)[i]? = some true ↔
      k ≤ i + 1 ∧ ∃ j, j ≤ i ∧ i < j + k ∧ m[j]? = some true := by
  unfold spreadBack
  rw [List.getElem?_map, List.getElem?_range hi]
  simp only [Option.map_some, Option.some.injEq, Bool.and_eq_true, decide_eq_true_eq]
  apply and_congr_right
  intro hk
  rw [List.any_eq_true]
  constructor
  · rintro ⟨b, hb, hbt⟩
    obtain ⟨n, hn⟩ := List.mem_iff_getElem?.mp hb
    rw [List.getElem?_take] at hn
    split_ifs at hn with hnk
    rw [List.getElem?_drop] at hn
    refine ⟨i + 1 - k + n, by omega, by omega, ?_⟩
    rw [hn]
    simpa using hbt
  · rintro ⟨j, h1, h2, h3⟩
    refine ⟨true, ?_, rfl⟩
    apply List.mem_iff_getElem?.mpr
    refine ⟨j - (i + 1 - k), ?_⟩
    rw [List.getElem?_take, if_pos (by omega), List.getElem?_drop]
    rw [show i + 1 - k + (j - (i + 1 - k)) = j by omega]
    exact h3

theorem gridFlags_mem {g : Series} {k : Nat} {c : ℚ} {i : Nat} (hi : i < g.length) :
    ∃ b, (gridFlags k c g)[i]? = some (g[i].1, b) ∧
      (b = true ↔ k ≤ i + 1 ∧ ∃ j, j ≤ i ∧ i < j + k ∧ ∃ w : List ℚ, w.length = k ∧
        (((dropLow g).map Prod.snd).drop j).take k = w.map some ∧ Flat c w) := by
  unfold gridFlags
  simp only
  set m := ((rollingRange k (dropLow g).values).map
    fun x => cellCmp (fun a b => decide (a < b)) x (some c)) with hm
  have hml : m.length = g.length := by simp [hm, length_rollingRange, length_dropLow]
  have hsl : (spreadBack k m).length = g.length := by rw [length_spreadBack, hml]
  refine ⟨(spreadBack k m)[i]'(by omega), ?_, ?_⟩
  · rw [List.getElem?_zip_eq_some]
    refine ⟨?_, by simp⟩
    have : (dropLow g).index = keys g := keys_dropLow g
    rw [this]
    simp [keys, hi]
  · have h1 := spreadBack_get (m := m) (k := k) (i := i) (by omega)
    rw [List.getElem?_eq_getElem (by omega)] at h1
    rw [Option.some.injEq] at h1
    rw [h1]
    apply and_congr_right
    intro _
    constructor
    · rintro ⟨j, a, b, h⟩
      refine ⟨j, a, b, ?_⟩
      exact (rollMask_get (by simp [length_dropLow]; omega)).mp h
    · rintro ⟨j, a, b, h⟩
      refine ⟨j, a, b, ?_⟩
      exact (rollMask_get (by simp [length_dropLow]; omega)).mpr h

/-! ### readings kept by `dropLow` are not negative -/

theorem dropLow_get {g : Series} {n : Nat} {x : ℚ}
    (h : ((dropLow g).map Prod.snd)[n]? = some (some x)) :
    ∃ t, g[n]? = some (t, some x) ∧
      ∀ u y, (u, some y) ∈ g → dayOf u = dayOf t → 1/10 * y ≤ x := by
  unfold dropLow at h
  rw [List.map_map, List.getElem?_map] at h
  cases hg : g[n]? with
  | none => rw [hg] at h; simp at h
  | some r =>
    rw [hg] at h
    simp only [Option.map_some, Function.comp_apply, Option.some.injEq] at h
    split_ifs at h with hc
    refine ⟨r.1, by rw [← h], ?_⟩
    intro u y hy hd
    have hmem : y ∈ valids (onDay g (dayOf r.1)) := by
      rw [mem_validsC]
      unfold onDay
      exact List.mem_map.mpr ⟨(u, some y), List.mem_filter.mpr ⟨hy, by simpa using hd⟩, rfl⟩
    cases hmx : (valids (onDay g (dayOf r.1))).max? with
    | none => rw [List.max?_eq_none_iff] at hmx; rw [hmx] at hmem; simp at hmem
    | some mx =>
      rw [hmx, h] at hc
      simp [cellCmp] at hc
      have := (List.max?_eq_some_iff.mp hmx).2 y hmem
      linarith

theorem dropLow_get_of {g : Series} {n : Nat} {t : Int} {x : ℚ} (hg : g[n]? = some (t, some x))
    (h : ∀ u y, (u, some y) ∈ g → dayOf u = dayOf t → 1/10 * y ≤ x) :
    ((dropLow g).map Prod.snd)[n]? = some (some x) := by
  unfold dropLow
  rw [List.map_map, List.getElem?_map, hg]
  simp only [Option.map_some, Function.comp_apply, Option.some.injEq]
  rw [if_neg]
  intro hc
  cases hmx : (valids (onDay g (dayOf t))).max? with
  | none => rw [hmx] at hc; simp [cellCmp] at hc
  | some mx =>
    rw [hmx] at hc
    simp [cellCmp] at hc
    have hm := mem_validsC.mp (List.max?_mem hmx)
    unfold onDay at hm
    obtain ⟨r, hr, hre⟩ := List.mem_map.mp hm
    have hr' := List.mem_filter.mp hr
    have := h r.1 mx (by rw [← hre]; exact hr'.1) (by simpa using hr'.2)
    linarith

theorem dropLow_nonneg {g : Series} {n : Nat} {x : ℚ}
    (h : ((dropLow g).map Prod.snd)[n]? = some (some x)) : 0 ≤ x := by
  obtain ⟨t, hg, hall⟩ := dropLow_get h
  have := hall t x (List.mem_of_getElem? hg) rfl
  linarith

/-- no run of the detection grid is flat for a cutoff that is not positive -/
theorem gridFlags_nonpos {g : Series} {k : Nat} {c : ℚ} (hc : c ≤ 0) {r : Int × Bool}
    (hr : r ∈ gridFlags k c g) : r.2 = false := by
  obtain ⟨i, hi⟩ := List.mem_iff_getElem?.mp hr
  have hlt : i < g.length := by
    have h1 := (List.getElem?_eq_some_iff.mp hi).1
    have h2 := congrArg List.length (fst_gridFlags k c g)
    simp [keys] at h2
    omega
  obtain ⟨b, hb, hiff⟩ := gridFlags_mem (k := k) (c := c) hlt
  rw [hi, Option.some.injEq] at hb
  rw [hb]
  simp only
  by_contra hne
  have hbt : b = true := by simpa using hne
  obtain ⟨_, j, _, _, w, hw, he, mx, hmx, mn, hmn, hall, hne0, hlt'⟩ := hiff.mp hbt
  have hnn : ∀ x ∈ w, 0 ≤ x := by
    intro x hx
    have : some x ∈ (((dropLow g).map Prod.snd).drop j).take k := by
      rw [he]; exact List.mem_map_of_mem hx
    have hm := List.mem_of_mem_drop (List.mem_of_mem_take this)
    obtain ⟨n, hn⟩ := List.mem_iff_getElem?.mp hm
    exact dropLow_nonneg hn
  have h1 := hnn mx hmx
  have h2 := hnn mn hmn
  have h3 : 0 < mx + mn := lt_of_le_of_ne (by linarith) (Ne.symm hne0)
  have h4 := (hall mx hmx).1
  have h5 : 0 ≤ (mx - mn) / ((mx + mn) / 2) * 100 :=
    mul_nonneg (div_nonneg (by linarith) (by linarith)) (by norm_num)
  linarith

/-! ### nothing detected, nothing excluded -/

theorem onDay_none {clip : Series} (h : ∀ r ∈ clip, r.2 = none) (d : Int) :
    valids (onDay clip d) = [] := by
  rw [List.eq_nil_iff_forall_not_mem]
  intro v hv
  rw [mem_validsC] at hv
  unfold onDay at hv
  obtain ⟨r, hr, e⟩ := List.mem_map.mp hv
  rw [h r (List.mem_of_mem_filter hr)] at e
  simp at e

theorem robustKeep_of_valids {l : List Cell} (h : valids l = []) (q : ℚ) : robustKeep l q = [] := by
  unfold robustKeep
  rw [List.eq_nil_iff_forall_not_mem]
  intro v hv
  rw [mem_validsC] at hv
  have := mem_validsC.mpr (List.mem_of_mem_filter hv)
  rw [h] at this
  simp at this

theorem robustQuantile_of_valids {l : List Cell} (h : valids l = []) (q : ℚ) :
    robustQuantile l q = none := by
  unfold robustQuantile
  rw [robustKeep_of_valids h]
  rfl

theorem dayLevels_none {clip : Series} (h : ∀ r ∈ clip, r.2 = none) (f d : Int) :
    dayLevels f clip d = (none, none) := by
  unfold dayLevels
  simp only [onDay_none h d, robustQuantile_of_valids (onDay_none h d)]
  split_ifs <;> rfl

theorem clippedOf_false {s : Series} {band : List Bool} (h : ∀ b ∈ band, b = false) :
    clippedOf s band = [] := by
  unfold clippedOf
  rw [List.map_eq_nil_iff, List.filter_eq_nil_iff]
  rintro ⟨v, b⟩ hx
  have := h b (List.of_mem_zip hx).2
  simp [this]

theorem out_of_no_detection {s : Series} {f : Int} {det : List Bool} {clip : Series}
    (hc : clipPower s det = .ok clip) (hd : ∀ b ∈ det, b = false) :
    ∀ b ∈ (applyOverall (powerCleaned s) (bandMask f s clip)
        (clippedOf s (bandMask f s clip))).map (!·), b = true := by
  have hcl : ∀ r ∈ clip, r.2 = none := by
    rw [clipPower_ok hc]
    intro r hr
    obtain ⟨⟨x, b⟩, hx, rfl⟩ := List.mem_map.mp hr
    have := hd b (List.of_mem_zip hx).2
    simp [this]
  have hb : ∀ b ∈ bandMask f s clip, b = false := by
    intro b hb
    unfold bandMask at hb
    obtain ⟨r, _, rfl⟩ := List.mem_map.mp hb
    rw [dayLevels_none hcl]
    rfl
  rw [clippedOf_false hb]
  have ho : overallApplies (powerCleaned s) [] = false := by
    unfold overallApplies
    rw [robustQuantile_of_valids (l := []) rfl]
    cases robustQuantile (powerCleaned s) (99/100) <;> rfl
  unfold applyOverall
  rw [ho]
  simp only [Bool.false_eq_true, if_false, List.mem_map]
  rintro b ⟨a, ha, rfl⟩
  rw [hb a ha]
  rfl

end Verif.Clip
