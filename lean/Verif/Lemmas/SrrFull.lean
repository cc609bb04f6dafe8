import Verif.Lemmas.SrrSawtooth
import Verif.Props.SrrShifts

/-! # The prepared days of a performance series without gaps -/

namespace Verif
open Spec

theorem presentPart_full {pm : Series} {v : Nat → ℚ} {n : Nat} (hv : HasValues pm v n) : presentPart pm = pm := by
  have hall : ∀ x ∈ pm, x.2.isNone = false := by
    intro x hx
    have : x.2 ∈ pm.map Prod.snd := List.mem_map.mpr ⟨x, hx, rfl⟩
    rw [hv] at this
    obtain ⟨i, -, e⟩ := List.mem_map.mp this
    rw [← e]; rfl
  have key : ∀ l : Series, (∀ x ∈ l, x.2.isNone = false) → (l.dropWhile fun x => x.2.isNone) = l := by
    intro l hl
    cases l with
    | nil => rfl
    | cons a l => rw [List.dropWhile_cons, hl a (by simp)]; simp
  unfold presentPart
  rw [key pm hall, key pm.reverse (fun x hx => hall x (by simpa using hx)), List.reverse_reverse]

theorem valids_range_some (v : Nat → ℚ) (l : List Nat) : valids (l.map fun i => some (v i)) = l.map v := by
  unfold valids
  rw [List.filterMap_map]
  induction l with
  | nil => rfl
  | cons a l ih => simp

theorem srrRenorm_full {rec : Bool} {v : Nat → ℚ} {n : Nat} {f : ℚ} :
    srrRenorm rec ((List.range n).map fun i => some (v i)) = some f ↔ FirstYear rec v n f := by
  unfold srrRenorm FirstYear
  cases rec with
  | false => simp [eq_comm]
  | true =>
    simp only [if_true]
    rw [← List.map_take, valids_range_some, List.take_range, isMedian_iff]

theorem isMedian_pos {l : List ℚ} {m : ℚ} (h : IsMedian l m) (hl : ∀ x ∈ l, 0 < x) : 0 < m := by
  obtain ⟨s, hp, -, hne, rfl⟩ := h
  have hpos := List.length_pos_iff.mpr hne
  have g : ∀ k, k < s.length → 0 < s.getD k 0 := by
    intro k hk
    rw [List.getD_eq_getElem?_getD, List.getElem?_eq_getElem hk]
    exact hl _ (hp.mem_iff.mp (List.getElem_mem hk))
  have h1 := g ((s.length - 1) / 2) (by omega)
  have h2 := g (s.length / 2) (by omega)
  linarith

theorem firstYear_pos {rec : Bool} {v : Nat → ℚ} {n : Nat} {f : ℚ} (hf : FirstYear rec v n f)
    (hpos : ∀ i < n, 0 < v i) : 0 < f := by
  unfold FirstYear at hf
  split_ifs at hf
  · refine isMedian_pos hf fun x hx => ?_
    obtain ⟨i, hi, rfl⟩ := List.mem_map.mp hx
    rw [List.mem_range] at hi
    exact hpos i (by omega)
  · rw [hf]; norm_num

theorem firstYear_exists (rec : Bool) (v : Nat → ℚ) {n : Nat} (hn : 0 < n) : ∃ f, FirstYear rec v n f := by
  unfold FirstYear
  cases rec with
  | false => exact ⟨1, by simp⟩
  | true =>
    simp only [if_true]
    have hne : (List.range (min 365 n)).map v ≠ [] := by
      intro h
      have := congrArg List.length h
      simp at this
      omega
    obtain ⟨m, hm⟩ := Option.isSome_iff_exists.mp (median_isSome.mpr hne)
    exact ⟨m, isMedian_iff.mpr hm⟩

/-- the prepared days of a series without gaps -/
theorem calcDailyDf_full {o : DailyOpts} {pm insol : Series} {precip : Option Series} {v : Nat → ℚ} {n : Nat} {f : ℚ}
    (hinit : srrInit pm insol precip = .ok ()) (hv : HasValues pm v n) (hpos : ∀ i < n, 0 < v i)
    (hf : FirstYear o.recenter v n f) (ho : o.dayScale ≠ 0) (hc : o.criterion = .shift) :
    ∃ r, calcDailyDf o pm insol precip = .ok r ∧ r.1 = some f ∧ r.2.map SrrRow.t = pm.map Prod.fst ∧
      normalized pm f r.2 = (List.range n).map (fun i => some (v i / f)) ∧
      r.2.map SrrRow.piNorm = (List.range n).map fun i => v i / f := by
  have hfpos := firstYear_pos hf hpos
  have hpi : (srrJoin pm insol precip).map SrrDay.pi = (List.range n).map fun i => some (v i) := by
    rw [srrJoin_eq, List.map_map, ← hv]
    rfl
  have htrim : trimMissing (srrJoin pm insol precip) = srrJoin pm insol precip := by
    rw [trimMissing_join, presentPart_full hv, srrJoin_eq]
  have hdaily : isDaily pm.index = true := by
    unfold srrInit at hinit
    by_contra hcon
    rw [if_pos (by simpa using hcon)] at hinit
    cases hinit
  have hlen : 3 ≤ pm.length := by
    unfold isDaily at hdaily
    rw [Bool.and_eq_true, decide_eq_true_eq] at hdaily
    simpa [Series.index] using hdaily.1
  have hex : ∃ r, calcDailyDf o pm insol precip = .ok r := by
    unfold calcDailyDf
    simp only
    rw [htrim, if_neg (by
      intro hnil
      rw [srrJoin_eq, List.map_eq_nil_iff] at hnil
      rw [hnil] at hlen
      simp at hlen), if_neg ho, hc]
    exact ⟨_, rfl⟩
  obtain ⟨r, hr⟩ := hex
  obtain ⟨hne, hds, ev, hev, h1, h2⟩ := calcDailyDf_ok hr
  have hr1 : r.1 = some f := by rw [h1, htrim, hpi]; exact srrRenorm_full.mpr hf
  have hnorm := normalized_eq hinit hr hr1 (ne_of_gt hfpos)
  rw [htrim, hpi, hr1] at hnorm
  have hx : normalized pm f r.2 = (List.range n).map (fun i => some (v i / f)) := by
    rw [← hnorm]
    unfold srrNorm
    rw [List.map_map]
    apply List.map_congr_left
    intro i _
    simp only [Function.comp_apply]
    rw [if_neg (by simpa using ne_of_gt hfpos)]
    rfl
  refine ⟨r, hr, hr1, ?_, hx, ?_⟩
  · rw [h2, htrim]
    apply List.ext_getElem
    · simp [srrRows_length, srrJoin_eq]
    · intro i g1 g2
      simp only [List.length_map] at g2
      unfold srrRows
      simp [List.getD_eq_getElem?_getD, srrJoin_eq, joinDay, g2]
  · rw [htrim, hpi, hr1, hnorm, hx] at h2
    have hpl : pm.length = n := by simpa using congrArg List.length hv
    rw [h2]
    apply List.ext_getElem
    · simp [srrRows_length, srrJoin_eq, hpl]
    · intro i g1 g2
      simp only [List.length_map, List.length_range] at g2
      unfold srrRows
      simp only [List.getElem_map, List.getElem_range, cellAt_range_map]
      rw [if_pos g2]
      rfl

theorem soilsBetween_scale {v : Nat → ℚ} {D : List Nat} {n : Nat} {m f : ℚ} (h : SoilsBetween v D n m) (hf : 0 < f) :
    SoilsBetween (fun i => v i / f) D n (m / f) := by
  intro i hi hD
  obtain ⟨h1, h2⟩ := h i hi hD
  refine ⟨by simp only; gcongr, ?_⟩
  simp only
  rw [← add_div]
  gcongr

theorem restores_scale {v : Nat → ℚ} {D : List Nat} {h : Nat} {J f : ℚ} (hr : Restores v D h J) (hf : 0 < f) :
    Restores (fun i => v i / f) D h (J / f) := by
  intro d hd
  simp only
  rw [← add_div]
  exact div_lt_div_of_pos_right (hr d hd) hf

/-- events and steps of the prepared days -/
theorem events_full {o : DailyOpts} {pm insol : Series} {precip : Option Series} {v : Nat → ℚ} {D : List Nat}
    {n h : Nat} {m f : ℚ}
    (hinit : srrInit pm insol precip = .ok ()) (hf0 : 0 < f)
    (ho : o.dayScale = 2 * h + 1) (hc : o.criterion = .shift) (hm : 0 ≤ m)
    (hs : SoilsBetween v D n m) (hsp : Spaced D n (2 * h + 1)) (hthr : ThresholdFits o v D h m f)
    {r : Cell × List SrrRow} (hr : calcDailyDf o pm insol precip = .ok r) (hr1 : r.1 = some f)
    (hx : normalized pm f r.2 = (List.range n).map (fun i => some (v i / f))) {i : Nat} (hi : i < r.2.length) :
    (r.2[i].event = true ↔ i ∈ D) ∧ -(m / f) ≤ r.2[i].delta := by
  have hthr' : ∃ J, Restores v D h J ∧ 0 ≤ J ∧ ((∃ c, o.cleanThreshold = some c ∧ 0 ≤ c ∧ c ≤ J / f) ∨
      (o.cleanThreshold = none ∧ 2 ≤ h ∧ 0 ≤ o.outlierFactor ∧ (1 + o.outlierFactor) * (m / f) ≤ J / f)) := by
    rcases hthr with ⟨c, h1, h2, h3⟩ | ⟨h1, h2, h3, h4⟩
    · refine ⟨_, h3, by positivity, Or.inl ⟨c, h1, h2, ?_⟩⟩
      rw [le_div_iff₀ hf0]
    · refine ⟨_, h4, by positivity, Or.inr ⟨h1, h2, h3, ?_⟩⟩
      rw [mul_div_assoc]
  obtain ⟨J, hR, hJ0, hJ⟩ := hthr'
  have hs' := soilsBetween_scale hs hf0
  have hR' := restores_scale hR hf0
  have hm' : 0 ≤ m / f := by positivity
  have hlen : r.2.length = n := by simpa [normalized] using congrArg List.length hx
  constructor
  · have hev := C98_events hinit hr hr1 (ne_of_gt hf0) hi
    rw [hev, hc, hx]
    simp only [CleanDay]
    rw [detected_full ho hs' hsp hR' hm' hJ]
    constructor
    · rintro (h1 | h1 | h1)
      · exact h1
      · exfalso
        obtain ⟨g1, -, g3⟩ := h1
        have := g3 (i + 1) (by omega) (by omega)
        simp only [List.length_map, List.length_range] at g1
        rw [cellAt_range_map, if_pos g1] at this
        simp at this
      · exfalso
        obtain ⟨g1, g2, -, g4⟩ := h1
        have := g4 (i - 1) (by omega) (by omega)
        rw [cellAt_range_map, if_pos (by omega)] at this
        simp at this
    · exact Or.inl
  · obtain ⟨s1, s2⟩ := C98_steps hinit hr hr1 (ne_of_gt hf0) hi
    rw [hx, ho] at s1 s2
    by_cases hex : ∃ d, ShiftAt (2 * h + 1) ((List.range n).map fun i => some (v i / f)) i d
    · obtain ⟨d, hd⟩ := hex
      rw [s1 d hd]
      exact (step_bounds hs' hsp hR' (by positivity) hm' hd).1
    · rw [s2 hex]
      linarith

end Verif
