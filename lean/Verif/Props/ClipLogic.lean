import Verif.Lemmas.ClipRegular
import Verif.Lemmas.ClipScale

/-! # Properties of the logic-based clipping filter (C75-C79) -/

namespace Verif.Clip

open Verif Spec

/-! ### concrete series used in the examples -/

/-- hourly readings of one day with a plateau at noon -/
def sampleDay : List ℚ :=
  [0, 0, 0, 1, 3, 6, 8, 9, 10, 10, 10, 10, 10, 8, 6, 3, 1, 0, 0, 0]

/-- the plateau is excluded, everything else kept -/
example : logicClipFilter (regular 0 3600000000000 sampleDay) = .ok
    [true, true, true, true, true, true, true, true, false, false, false, false, false, true, true,
      true, true, true, true, true] := by decide +kernel

/-! ### C75: one verdict per reading; missing readings are kept -/

/-- **C75 (total).** On a strictly increasing index with more than ten readings and a known mounting
type the filter never fails, whatever the readings, the cutoff and the window length are. -/
theorem C75_total {s : Series} (hs : (s.map Prod.fst).Pairwise (· < ·)) (hl : 10 < s.length)
    {m : String} (hm : m = "fixed" ∨ m = "single_axis_tracking") (c : ℚ) (k : Option Nat) :
    ∃ out, logicClipFilter s m c k = .ok out := by
  have hne : s ≠ [] := by rintro rfl; simp at hl
  obtain ⟨f, hf⟩ := Option.isSome_iff_exists.mp
    (modeMin_isSome (stepsOf_ne_nil (l := s.index) (by simp; omega)))
  obtain ⟨det, hd⟩ := detect_total (s := s) hs hne m c k f
  exact ⟨_, logic_of hm (hs.imp le_of_lt) hl hf hd (clipPower_of_nodup (StrictSorted.nodup hs))⟩

/-- **C75 (rejections).** The filter refuses an unknown mounting type, an unsorted index and a
series of at most ten readings; it never answers for them. -/
theorem C75_rejects {s : Series} {m : String} {c : ℚ} {k : Option Nat}
    (h : (m ≠ "fixed" ∧ m ≠ "single_axis_tracking") ∨ ¬ (s.map Prod.fst).Pairwise (· ≤ ·) ∨
      s.length ≤ 10) : ∃ e, logicClipFilter s m c k = .error e := by
  cases hr : logicClipFilter s m c k with
  | error e => exact ⟨e, rfl⟩
  | ok out =>
    obtain ⟨h1, h2, h3⟩ := logic_format hr
    rcases h with h | h | h
    · rcases h1 with e | e
      · exact absurd e h.1
      · exact absurd e h.2
    · exact absurd h2 h
    · omega

/-- **C75 (length).** One verdict per reading. -/
theorem C75_length {s : Series} {m : String} {c : ℚ} {k : Option Nat} {out : List Bool}
    (h : logicClipFilter s m c k = .ok out) : out.length = s.length := by
  obtain ⟨f, det, clip, _, _, _, rfl⟩ := logic_ok h
  rw [List.length_map, length_applyOverall] <;> simp [length_powerCleaned, length_bandMask]

/-- what decides the verdict on reading `i` of an increasing series -/
theorem verdict {s : Series} (hs : (s.map Prod.fst).Pairwise (· < ·)) {m : String} {c : ℚ}
    {k : Option Nat} {out : List Bool} (h : logicClipFilter s m c k = .ok out) {i : Nat} {t : Int}
    {v : Cell} (hi : s[i]? = some (t, v)) :
    ∃ f det clip, modeMin (stepsOf s.index) = some f ∧ detect s m c k f = .ok det ∧
      clipPower s det = .ok clip ∧
      out[i]? = some (!(inBand (dayLevels f clip (dayOf t)).1 (dayLevels f clip (dayOf t)).2 v ||
        (overallApplies (powerCleaned s) (clippedOf s (bandMask f s clip)) &&
          cellCmp (fun a b => decide (a ≥ b)) (if frozen (onDay s (dayOf t)) then none else v)
            (robustQuantile (powerCleaned s) (99/100))))) := by
  obtain ⟨f, det, clip, hf, hd, hc, rfl⟩ := logic_ok h
  refine ⟨f, det, clip, hf, hd, hc, ?_⟩
  have hband : (bandMask f s clip)[i]? =
      some (inBand (dayLevels f clip (dayOf t)).1 (dayLevels f clip (dayOf t)).2 v) := by
    unfold bandMask
    rw [List.getElem?_map, hi]
    rfl
  have hcl : (powerCleaned s)[i]? = some (if frozen (onDay s (dayOf t)) then none else v) := by
    rw [powerCleaned_eq (StrictSorted.nodup hs), List.getElem?_map, hi]
    rfl
  rw [List.getElem?_map]
  unfold applyOverall
  generalize (if frozen (onDay s (dayOf t)) then none else v) = w at hcl ⊢
  generalize inBand (dayLevels f clip (dayOf t)).1 (dayLevels f clip (dayOf t)).2 v = b at hband ⊢
  by_cases ho : overallApplies (powerCleaned s) (clippedOf s (bandMask f s clip)) = true
  · rw [if_pos ho, List.getElem?_map,
      (List.getElem?_zip_eq_some (z := (b, w))).mpr ⟨hband, hcl⟩]
    simp only [Option.map_some, ho, Bool.true_and]
  · rw [if_neg ho, hband]
    simp [ho]

/-- **C75 (missing readings).** A missing reading is never called clipping. -/
theorem C75_missing_kept {s : Series} (hs : (s.map Prod.fst).Pairwise (· < ·)) {m : String} {c : ℚ}
    {k : Option Nat} {out : List Bool} (h : logicClipFilter s m c k = .ok out) {i : Nat} {t : Int}
    (hi : s[i]? = some (t, none)) : out[i]? = some true := by
  obtain ⟨f, det, clip, _, _, _, ho⟩ := verdict hs h hi
  rw [ho]
  have h1 : ∀ lo hi : Cell, inBand lo hi none = false := by
    intro lo hi; cases lo <;> cases hi <;> rfl
  rw [h1, ite_self]
  have h2 : ∀ q : Cell, cellCmp (fun a b => decide (a ≥ b)) none q = false := by
    intro q; cases q <;> rfl
  rw [h2]
  simp

/-- a missing reading inside a plateau -/
example : (logicClipFilter ((regular 0 3600000000000 sampleDay).map fun r =>
    if r.1 = 10 * 3600000000000 then (r.1, none) else r)) = .ok
    [true, true, true, true, true, true, true, true, false, false, true, false, false, true, true,
      true, true, true, true, true] := by decide +kernel

/-! ### C76: unit independence -/

/-- **C76.** Expressing the power in another unit changes no verdict and no error. -/
theorem C76_unit_independent {c : ℚ} (hc : 0 < c) (s : Series) (m : String) (cutoff : ℚ)
    (k : Option Nat) :
    logicClipFilter (s.map fun r => (r.1, r.2.map (c * ·))) m cutoff k =
      logicClipFilter s m cutoff k :=
  logic_scale hc s m cutoff k

example : (0 : ℚ) < 1000 ∧ (regular 0 3600000000000 sampleDay).length = 20 := by decide +kernel

/-! ### C77: the verdict is a function of the day and the reading -/

/-- **C77.** Two equal readings of the same day get the same verdict. -/
theorem C77_same_day_same_value {s : Series} (hs : (s.map Prod.fst).Pairwise (· < ·)) {m : String}
    {c : ℚ} {k : Option Nat} {out : List Bool} (h : logicClipFilter s m c k = .ok out) {i j : Nat}
    {t u : Int} {v : Cell} (hi : s[i]? = some (t, v)) (hj : s[j]? = some (u, v))
    (hd : SameDay t u) : out[i]? = out[j]? := by
  obtain ⟨f, det, clip, e1, e2, e3, h1⟩ := verdict hs h hi
  obtain ⟨f', det', clip', e1', e2', e3', h2⟩ := verdict hs h hj
  have ef : f = f' := by rw [e1] at e1'; exact Option.some.inj e1'
  subst ef
  have ed : det = det' := by rw [e2] at e2'; exact Except.ok.inj e2'
  subst ed
  have ec : clip = clip' := by rw [e3] at e3'; exact Except.ok.inj e3'
  subst ec
  have hday : dayOf t = dayOf u := hd
  rw [h1, h2, hday]

/-! ### C78: no plateau, no exclusion -/

/-- **C78 (cutoff).** A cutoff of zero or less switches the filter off, for every input the filter
accepts. -/
theorem C78_cutoff_nonpos {s : Series} {m : String} {c : ℚ} (hc : c ≤ 0) {k : Option Nat}
    {out : List Bool} (h : logicClipFilter s m c k = .ok out) : ∀ b ∈ out, b = true := by
  obtain ⟨f, det, clip, hf, hd, hcl, rfl⟩ := logic_ok h
  apply out_of_no_detection hcl
  obtain ⟨grid, _, hmap⟩ := detect_ok hd
  intro b hb
  have : some b ∈ det.map some := List.mem_map_of_mem hb
  rw [← hmap] at this
  obtain ⟨t, _, ht⟩ := List.mem_map.mp this
  unfold lastLabelLe at ht
  obtain ⟨r, hr, rfl⟩ := Option.map_eq_some_iff.mp ht
  exact gridFlags_nonpos hc (List.mem_of_mem_filter (List.mem_of_getLast? hr))

example : logicClipFilter (regular 0 3600000000000 sampleDay) "fixed" 0 = .ok
    (List.replicate 20 true) := by decide +kernel

end Verif.Clip
