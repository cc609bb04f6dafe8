import Verif.Model.ClipLogic
import Verif.Lemmas.Interpolate
import Verif.Lemmas.Stats
import Mathlib.Data.Finset.Max

/-! Helper lemmas on the logic-based clipping filter. -/

namespace Verif.Clip

open Verif

theorem bindOk {α β : Type} {x : Except PyErr α} {f : α → Except PyErr β} {b : β} :
    x.bind f = .ok b ↔ ∃ a, x = .ok a ∧ f a = .ok b := by
  cases x <;> simp [Except.bind]

theorem bindEqOk {α β : Type} {x : Except PyErr α} {f : α → Except PyErr β} {a : α}
    (h : x = .ok a) : x.bind f = f a := by subst h; rfl

/-! ### lists -/

theorem keys_dropDupFirst_sub {s : Series} {r : Int × Cell} (h : r ∈ dropDupFirst s) : r ∈ s := by
  induction s with
  | nil => simp [dropDupFirst] at h
  | cons a s ih =>
    rw [dropDupFirst, List.mem_cons] at h
    rcases h with h | h
    · exact h ▸ List.mem_cons_self
    · exact List.mem_cons_of_mem _ (ih (List.mem_of_mem_filter h))

theorem dropDupFirst_of_nodup {s : Series} (h : (keys s).Nodup) : dropDupFirst s = s := by
  induction s with
  | nil => rfl
  | cons a s ih =>
    simp only [keys, List.map_cons, List.nodup_cons] at h
    rw [dropDupFirst, ih h.2, List.filter_eq_self.mpr]
    intro x hx
    have hne : x.1 ≠ a.1 := by
      intro e
      exact h.1 (List.mem_map.mpr ⟨x, hx, e⟩)
    simpa using hne

theorem dropDupFirst_nodup (s : Series) : (keys (dropDupFirst s)).Nodup := by
  induction s with
  | nil => simp [dropDupFirst, keys]
  | cons a s ih =>
    rw [dropDupFirst, keys, List.map_cons, List.nodup_cons]
    refine ⟨?_, ?_⟩
    · intro h
      obtain ⟨x, hx, e⟩ := List.mem_map.mp h
      have := (List.mem_filter.mp hx).2
      simp [e] at this
    · exact ih.sublist (List.Sublist.map _ (List.filter_sublist))

theorem keys_cleanFrozen (s : Series) : keys (cleanFrozen s) = keys s := by
  simp [cleanFrozen, keys, Function.comp_def]

theorem keys_dropLow (s : Series) : keys (dropLow s) = keys s := by
  simp [dropLow, keys, Function.comp_def]

theorem length_dropLow (s : Series) : (dropLow s).length = s.length := by simp [dropLow]

theorem length_rollingRange (k : Nat) (l : List Cell) : (rollingRange k l).length = l.length := by
  simp [rollingRange]

theorem length_spreadBack (k : Nat) (l : List Bool) : (spreadBack k l).length = l.length := by
  simp [spreadBack]

theorem fst_gridFlags (k : Nat) (c : ℚ) (g : Series) : (gridFlags k c g).map Prod.fst = keys g := by
  unfold gridFlags
  simp only
  rw [List.map_fst_zip]
  · exact keys_dropLow g
  · simp [length_spreadBack, length_rollingRange, length_dropLow]

theorem lastLabelLe_isSome {α : Type} {K : List (Int × α)} {t : Int} :
    (lastLabelLe K t).isSome ↔ ∃ u ∈ K.map Prod.fst, u ≤ t := by
  unfold lastLabelLe
  rw [Option.isSome_map, List.getLast?_isSome, Ne, List.filter_eq_nil_iff]
  push Not
  constructor
  · rintro ⟨r, hr, h⟩
    exact ⟨r.1, List.mem_map_of_mem hr, by simpa using h⟩
  · rintro ⟨u, hu, h⟩
    obtain ⟨r, hr, rfl⟩ := List.mem_map.mp hu
    exact ⟨r, hr, by simpa using h⟩

theorem strictMask_ok {l : List (Option Bool)} {m : List Bool} :
    strictMask l = .ok m ↔ l = m.map some := by
  unfold strictMask
  split_ifs with h
  · rw [Except.ok.injEq]
    rw [List.all_eq_true] at h
    constructor
    · rintro rfl
      rw [List.map_map]
      conv_lhs => rw [← List.map_id l]
      apply List.map_congr_left
      intro o ho
      obtain ⟨b, hb⟩ := Option.isSome_iff_exists.mp (h o ho)
      simp [hb]
    · rintro rfl
      simp [Function.comp_def]
  · constructor
    · intro e; cases e
    · rintro rfl
      exact absurd (by simp) h

theorem modeMin_isSome {l : List Int} (h : l ≠ []) : (modeMin l).isSome := by
  unfold modeMin
  rw [List.isSome_min?_iff]
  intro he
  obtain ⟨x, hx, hmax⟩ := Finset.exists_max_image l.toFinset (fun x => l.count x)
    (by
      obtain ⟨a, l', rfl⟩ := List.exists_cons_of_ne_nil h
      exact ⟨a, by simp⟩)
  rw [List.filter_eq_nil_iff] at he
  refine he x (List.mem_toFinset.mp hx) ?_
  rw [List.all_eq_true]
  intro y hy
  simpa using hmax y (List.mem_toFinset.mpr hy)

theorem modeMin_mem {l : List Int} {f : Int} (h : modeMin l = some f) : f ∈ l :=
  List.mem_of_mem_filter (List.min?_mem h)

/-! ### the index -/

theorem formatClipping_ok {ts : List Int} {m : String} {o : List Int}
    (h : formatClipping (.datetime ts) m = .ok o) :
    (m = "fixed" ∨ m = "single_axis_tracking") ∧ ts.Pairwise (· ≤ ·) ∧ 10 < ts.length := by
  unfold formatClipping at h
  simp only at h
  split_ifs at h with h1 h2 h3
  refine ⟨?_, ?_, by omega⟩
  · by_contra hc; push Not at hc; exact h1 ⟨hc.2, hc.1⟩
  · have := List.pairwise_insertionSort (· ≤ ·) ts
    rw [not_not.mp h2] at this
    exact this

theorem formatClipping_of {ts : List Int} {m : String}
    (hm : m = "fixed" ∨ m = "single_axis_tracking") (hs : ts.Pairwise (· ≤ ·))
    (hl : 10 < ts.length) : formatClipping (.datetime ts) m = .ok ts := by
  unfold formatClipping
  simp only
  rw [if_neg (by rintro ⟨a, b⟩; rcases hm with h | h <;> simp_all),
    if_neg (not_not.mpr (List.Pairwise.insertionSort_eq hs)), if_neg (by omega)]

theorem stepsOf_pos {l : List Int} (h : StrictSorted l) : ∀ d ∈ stepsOf l, 0 < d := by
  induction l with
  | nil => simp [stepsOf]
  | cons a l ih =>
    cases l with
    | nil => simp [stepsOf]
    | cons b l =>
      have h' := List.pairwise_cons.mp h
      rw [stepsOf]
      intro d hd
      rcases List.mem_cons.mp hd with e | e
      · have := h'.1 b List.mem_cons_self
        omega
      · exact ih h'.2 d e

theorem stepsOf_ne_nil {l : List Int} (h : 2 ≤ l.length) : stepsOf l ≠ [] := by
  match l, h with
  | a :: b :: l, _ => simp [stepsOf]

/-! ### the pieces of the run -/

/-- `power_cleaned` on a duplicate-free index -/
theorem powerCleaned_eq {s : Series} (hn : (keys s).Nodup) :
    powerCleaned s = s.map fun r => if frozen (onDay s (dayOf r.1)) then none else r.2 := by
  unfold powerCleaned
  rw [dropDupFirst_of_nodup hn, List.map_map]
  apply List.map_congr_left
  intro r hr
  rw [Function.comp_apply]
  apply lookupK_of_mem (by rw [keys_cleanFrozen]; exact hn)
  exact List.mem_map.mpr ⟨r, hr, rfl⟩

theorem length_powerCleaned (s : Series) : (powerCleaned s).length = s.length := by
  simp [powerCleaned]

theorem length_bandMask (f : Int) (s clip : Series) : (bandMask f s clip).length = s.length := by
  simp [bandMask]

theorem length_applyOverall {cleaned clipped : List Cell} {mask : List Bool}
    (h : cleaned.length = mask.length) : (applyOverall cleaned mask clipped).length = mask.length := by
  unfold applyOverall
  split_ifs <;> simp [h]

/-- readings handed to the overall threshold -/
def clippedOf (s : Series) (band : List Bool) : List Cell :=
  ((s.values.zip band).filter fun x => x.2).map Prod.fst

theorem logic_ok {s : Series} {m : String} {c : ℚ} {k : Option Nat} {out : List Bool}
    (h : logicClipFilter s m c k = .ok out) :
    ∃ f det clip, modeMin (stepsOf s.index) = some f ∧ detect s m c k f = .ok det ∧
      clipPower s det = .ok clip ∧
      out = (applyOverall (powerCleaned s) (bandMask f s clip)
        (clippedOf s (bandMask f s clip))).map (!·) := by
  unfold logicClipFilter at h
  obtain ⟨_, _, h⟩ := bindOk.mp h
  cases hf : modeMin (stepsOf s.index) with
  | none => rw [hf] at h; cases h
  | some f =>
    rw [hf] at h
    obtain ⟨det, hd, h⟩ := bindOk.mp h
    obtain ⟨clip, hc, h⟩ := bindOk.mp h
    rw [Except.ok.injEq] at h
    exact ⟨f, det, clip, rfl, hd, hc, h.symm⟩

theorem logic_format {s : Series} {m : String} {c : ℚ} {k : Option Nat} {out : List Bool}
    (h : logicClipFilter s m c k = .ok out) :
    (m = "fixed" ∨ m = "single_axis_tracking") ∧ s.index.Pairwise (· ≤ ·) ∧ 10 < s.length := by
  unfold logicClipFilter at h
  obtain ⟨_, h1, _⟩ := bindOk.mp h
  have := formatClipping_ok h1
  simpa using this

theorem logic_of {s : Series} {m : String} {c : ℚ} {k : Option Nat} {f : Int} {det : List Bool}
    {clip : Series} (hm : m = "fixed" ∨ m = "single_axis_tracking")
    (hs : s.index.Pairwise (· ≤ ·)) (hl : 10 < s.length)
    (hf : modeMin (stepsOf s.index) = some f) (hd : detect s m c k f = .ok det)
    (hc : clipPower s det = .ok clip) :
    logicClipFilter s m c k = .ok ((applyOverall (powerCleaned s) (bandMask f s clip)
        (clippedOf s (bandMask f s clip))).map (!·)) := by
  unfold logicClipFilter
  rw [bindEqOk (formatClipping_of hm hs (by simpa using hl)), hf]
  simp only
  rw [bindEqOk hd, bindEqOk hc]
  rfl

theorem detect_ok {s : Series} {m : String} {c : ℚ} {k : Option Nat} {f : Int} {det : List Bool}
    (h : detect s m c k f = .ok det) :
    ∃ grid, detectionGrid s f = .ok grid ∧
      s.index.map (lastLabelLe (gridFlags (k.getD (rollDefault m f)) c grid)) = det.map some := by
  unfold detect at h
  obtain ⟨grid, hg, h⟩ := bindOk.mp h
  exact ⟨grid, hg, strictMask_ok.mp h⟩

theorem length_detect {s : Series} {m : String} {c : ℚ} {k : Option Nat} {f : Int} {det : List Bool}
    (h : detect s m c k f = .ok det) : det.length = s.length := by
  obtain ⟨_, _, h⟩ := detect_ok h
  have := congrArg List.length h
  simpa using this.symm

theorem clipPower_ok {s : Series} {det : List Bool} {clip : Series}
    (h : clipPower s det = .ok clip) :
    clip = (s.zip det).map fun x => (x.1.1, if x.2 then x.1.2 else none) := by
  unfold clipPower at h
  simp only at h
  split_ifs at h
  exact (Except.ok.inj h).symm

theorem clipPower_of_nodup {s : Series} {det : List Bool} (hn : (keys s).Nodup) :
    clipPower s det = .ok ((s.zip det).map fun x => (x.1.1, if x.2 then x.1.2 else none)) := by
  unfold clipPower
  simp only
  rw [if_neg]
  rintro ⟨-, h⟩
  apply h
  have h1 : (((s.zip det).filter fun x => x.2).map fun x => x.1.1).Sublist (keys s) := by
    have h2 : (((s.zip det).filter fun x => x.2).map fun x => x.1).Sublist s := by
      have h3 : ((s.zip det).map Prod.fst).Sublist s := by
        clear hn h
        induction s generalizing det with
        | nil => simp
        | cons a s ih =>
          cases det with
          | nil => simp
          | cons d det =>
            simp only [List.zip_cons_cons, List.map_cons]
            exact (ih).cons_cons a
      exact (List.Sublist.map _ List.filter_sublist).trans h3
    have := List.Sublist.map Prod.fst h2
    rwa [List.map_map] at this
  exact hn.sublist h1

/-- the detection grid of an increasing series exists and starts no later than the series -/
theorem detectionGrid_ok {s : Series} (hs : StrictSorted (keys s)) (hne : s ≠ []) (f : Int) :
    ∃ grid, detectionGrid s f = .ok grid ∧ ∃ u ∈ keys grid, u ≤ s.index.headD 0 := by
  unfold detectionGrid
  simp only
  rw [dropDupFirst_of_nodup hs.nodup]
  have hk : (cleanFrozen s).index = s.index := keys_cleanFrozen s
  rw [hk]
  have hle : s.index.headD 0 ≤ s.index.getLastD 0 := by
    obtain ⟨a, l, rfl⟩ := List.exists_cons_of_ne_nil hne
    simp only [List.map_cons, List.headD_cons]
    have hp := List.pairwise_cons.mp hs
    rcases List.eq_nil_or_concat l with rfl | ⟨l', b, rfl⟩
    · simp
    · have hb := hp.1 b.1 (by simp)
      simp only [List.getLastD_cons, List.concat_eq_append, List.map_append, List.map_cons, List.map_nil]
      have e : (List.map Prod.fst l' ++ [b.1]).getLastD a.1 = b.1 := by
        rw [List.getLastD_eq_getLast?]; simp
      rw [e]; exact le_of_lt hb
  by_cases hf : 10 * minuteNs ≤ f
  · rw [if_pos hf, interpolateSeries_eq (by rw [keys_cleanFrozen]; exact hs)]
    refine ⟨_, rfl, s.index.headD 0, ?_, le_refl _⟩
    have hpos : 0 < f := by have : (0 : Int) < 10 * minuteNs := by decide
                            omega
    simp only [keys, List.map_map, List.mem_map, Function.comp_apply]
    refine ⟨s.index.headD 0, ?_, rfl⟩
    unfold dateRange
    rw [List.mem_map]
    refine ⟨0, ?_, by simp⟩
    rw [List.mem_range]
    have : 0 ≤ (s.index.getLastD 0 - s.index.headD 0) / f := Int.ediv_nonneg (by omega) (by omega)
    omega
  · rw [if_neg hf]
    refine ⟨_, rfl, ?_⟩
    have hq : (0 : Int) < 15 * minuteNs := by decide
    refine ⟨s.index.headD 0 / (15 * minuteNs) * (15 * minuteNs), ?_, Int.ediv_mul_le _ (by omega)⟩
    unfold resample15
    simp only [hk, keys, List.map_map, List.mem_map, Function.comp_apply, List.mem_range]
    refine ⟨0, ?_, by simp⟩
    have := Int.ediv_le_ediv hq hle
    omega

theorem detect_total {s : Series} (hs : StrictSorted (keys s)) (hne : s ≠ []) (m : String) (c : ℚ)
    (k : Option Nat) (f : Int) : ∃ det, detect s m c k f = .ok det := by
  obtain ⟨grid, hg, u, hu, hle⟩ := detectionGrid_ok hs hne f
  unfold detect
  rw [bindEqOk hg]
  simp only
  unfold strictMask
  rw [if_pos]
  · exact ⟨_, rfl⟩
  · rw [List.all_eq_true]
    intro o ho
    obtain ⟨t, ht, rfl⟩ := List.mem_map.mp ho
    rw [lastLabelLe_isSome, fst_gridFlags]
    refine ⟨u, hu, le_trans hle ?_⟩
    obtain ⟨a, l, rfl⟩ := List.exists_cons_of_ne_nil hne
    simp only [List.map_cons, List.headD_cons]
    simp only [List.map_cons, List.mem_cons] at ht
    rcases ht with rfl | ht
    · exact le_refl _
    · exact le_of_lt ((List.pairwise_cons.mp hs).1 t ht)

end Verif.Clip
