import Verif.Model.Plotting
import Mathlib.Data.List.Nodup

/-! # Properties C91 (filter tuning figure) and C92 (energy against irradiance) -/

namespace Verif.Plots

open Verif

theorem alignMask_length {index : List Int} {mask : List (Int × Option Bool)} {m : List (Option Bool)}
    (h : alignMask index mask = .ok m) : m.length = index.length := by
  unfold alignMask at h
  split_ifs at h with h1 h2
  · cases h; rw [← h1]; simp
  · cases h; simp

theorem lookupB_spec (mask : List (Int × Option Bool)) (t : Int) :
    (t, lookupK mask t) ∈ mask ∨ (lookupK mask t = none ∧ t ∉ mask.map Prod.fst) := by
  induction mask with
  | nil => right; simp [lookupK]
  | cons r l ih =>
    obtain ⟨u, x⟩ := r
    unfold lookupK
    by_cases hu : u = t
    · rw [if_pos hu, hu]; left; simp
    · rw [if_neg hu]
      rcases ih with h | ⟨h1, h2⟩
      · left; exact List.mem_cons_of_mem _ h
      · right
        refine ⟨h1, ?_⟩
        rw [List.map_cons, List.mem_cons]
        rintro (h | h)
        · exact hu h.symm
        · exact h2 h

/-- **C91 (every reading, own verdict).** If the signal is not called "mask", every reading appears exactly
once with its own time and value, in the given order. The colour of a reading is a verdict of the mask for its
timestamp; a reading the mask does not know has none. -/
theorem C91_points {s : Named} {mask : List (Int × Option Bool)} {out : List (Int × Value × Option Bool)}
    (h : tuneFilterPlot s mask = .ok out) (hn : s.name ≠ some "mask") :
    (out.map fun x => (x.1, x.2.1)) = (s.data.map fun r => (r.1, Value.num r.2)) ∧
    ∀ t v b, (t, v, b) ∈ out → (t, b) ∈ mask ∨ (b = none ∧ t ∉ mask.map Prod.fst) := by
  unfold tuneFilterPlot at h
  simp only at h
  cases ha : alignMask (s.data.map Prod.fst) mask with
  | error e => rw [ha] at h; simp [Except.bind] at h
  | ok m =>
    rw [ha] at h
    simp only [Except.bind] at h
    split_ifs at h with hi hk
    · exfalso
      cases hs : s.name with
      | none => rw [hs] at hk; simp at hk
      | some n => rw [hs] at hk hn; simp at hk hn; exact hn hk
    · cases h
      have hl := alignMask_length ha
      rw [List.length_map] at hl
      refine ⟨?_, fun t v b hb => ?_⟩
      · rw [List.map_map]
        have : ((fun x : Int × Value × Option Bool => (x.1, x.2.1)) ∘
            fun x : (Int × Cell) × Option Bool => (x.1.1, Value.num x.1.2, x.2)) =
            (fun r : Int × Cell => (r.1, Value.num r.2)) ∘ Prod.fst := rfl
        rw [this, ← List.map_map, List.map_fst_zip (by omega)]
      · obtain ⟨⟨r, b'⟩, hx, e⟩ := List.mem_map.mp hb
        simp only [Prod.mk.injEq] at e
        obtain ⟨rfl, -, rfl⟩ := e
        obtain ⟨k, hk1, hk2⟩ := List.getElem_of_mem hx
        rw [List.getElem_zip, Prod.mk.injEq] at hk2
        simp only [List.length_zip] at hk1
        unfold alignMask at ha
        split_ifs at ha with he
        · left
          cases ha
          have e1 : (mask.map Prod.fst)[k]'(by rw [he, List.length_map]; omega) = r.1 := by
            simp only [he, List.getElem_map, hk2.1]
          rw [List.getElem_map] at e1
          have e2 := hk2.2
          rw [List.getElem_map] at e2
          rw [← e1, ← e2]
          exact List.getElem_mem _
        · cases ha
          have e2 := hk2.2
          simp only [List.getElem_map, hk2.1] at e2
          rw [← e2]
          exact lookupB_spec mask r.1

/-- **C91 (drawn).** The figure is drawn if the names of signal and index do not clash and the mask has no
duplicate timestamps or the timestamps of the signal. -/
theorem C91_drawn {s : Named} {mask : List (Int × Option Bool)}
    (hm : (mask.map Prod.fst).Nodup ∨ mask.map Prod.fst = s.data.map Prod.fst)
    (hc : s.indexName.getD "datetime" ≠ s.name.getD "signal") (hi : s.indexName ≠ some "mask") :
    ∃ out, tuneFilterPlot s mask = .ok out := by
  unfold tuneFilterPlot
  simp only
  obtain ⟨m, hm⟩ : ∃ m, alignMask (s.data.map Prod.fst) mask = .ok m := by
    unfold alignMask
    split_ifs with h1 h2
    · exact ⟨_, rfl⟩
    · exact ⟨_, rfl⟩
    · rcases hm with hm | hm
      · exact absurd hm h2
      · exact absurd hm h1
  rw [hm]
  simp only [Except.bind]
  rw [if_neg]
  · exact ⟨_, rfl⟩
  · rintro (h | h)
    · exact hc h
    · cases hs : s.indexName with
      | none => rw [hs] at h; simp at h
      | some n => rw [hs] at h hi; simp at h hi; exact hi h

/-- **C91 is false for a signal called "mask"**: its values are replaced by the verdicts. -/
theorem C91_mask_name_refuted : ∃ (s : Named) (mask : List (Int × Option Bool)) (out : List (Int × Value × Option Bool)),
    tuneFilterPlot s mask = .ok out ∧ s.data = [(0, some 5), (1, some 7)] ∧
      out = [(0, .flag (some true), some true), (1, .flag (some false), some false)] :=
  ⟨⟨some "mask", none, [(0, some 5), (1, some 7)]⟩, [(0, some true), (1, some false)], _, rfl, rfl, by decide⟩

/-- **C91 (clash).** A signal whose name is the name of its index cannot be drawn: ValueError. This happens for an unnamed
index and a signal called "datetime". -/
theorem C91_name_clash {s : Named} {mask : List (Int × Option Bool)}
    (hc : s.indexName.getD "datetime" = s.name.getD "signal" ∨ s.indexName = some "mask") :
    tuneFilterPlot s mask = .error .valueError := by
  unfold tuneFilterPlot
  simp only
  cases ha : alignMask (s.data.map Prod.fst) mask with
  | error e =>
    unfold alignMask at ha
    split_ifs at ha
    cases ha
    rfl
  | ok m =>
    simp only [Except.bind]
    rw [if_pos]
    rcases hc with h | h
    · exact Or.inl h
    · right; rw [h]; rfl

example : tuneFilterPlot ⟨some "datetime", none, [(0, some 5)]⟩ [(0, some true)] = .error .valueError := by decide

example : tuneFilterPlot ⟨none, none, [(0, some 5), (1, none), (2, some 3)]⟩ [(2, some false), (0, some true)] =
    .ok [(0, .num (some 5), some true), (1, .num none, none), (2, .num (some 3), some false)] := by decide +kernel

/-- **C92 (pairs).** A point of irradiance against energy is drawn exactly for two readings of the same timestamp. -/
theorem C92_pairs (poa energy : Series) (t : Int) (x y : Cell) :
    (t, x, y) ∈ irradianceScatter poa energy ↔ (t, x) ∈ poa ∧ (t, y) ∈ energy := by
  unfold irradianceScatter
  simp only [List.mem_flatMap, List.mem_map, List.mem_filter, decide_eq_true_eq, Prod.mk.injEq]
  constructor
  · rintro ⟨⟨t1, x1⟩, hp, ⟨t2, y2⟩, ⟨he, e⟩, rfl, rfl, rfl⟩
    simp only at e
    subst e
    exact ⟨hp, he⟩
  · rintro ⟨hp, he⟩
    exact ⟨(t, x), hp, (t, y), ⟨he, rfl⟩, rfl, rfl, rfl⟩

/-- **C92 (once).** Without duplicate timestamps every common timestamp gives exactly one point, in the order of the
irradiance. -/
theorem C92_once {poa energy : Series} (hp : (poa.map Prod.fst).Nodup) (he : (energy.map Prod.fst).Nodup) :
    (irradianceScatter poa energy).map Prod.fst =
      (poa.map Prod.fst).filter fun t => decide (t ∈ energy.map Prod.fst) := by
  unfold irradianceScatter
  clear hp
  induction poa with
  | nil => rfl
  | cons p l ih =>
    rw [List.flatMap_cons, List.map_append, ih, List.map_cons, List.filter_cons]
    have key : ((energy.filter fun e => decide (e.1 = p.1)).map fun e => (p.1, p.2, e.2)).map Prod.fst =
        if p.1 ∈ energy.map Prod.fst then [p.1] else [] := by
      clear ih
      induction energy with
      | nil => rfl
      | cons e k ih =>
        rw [List.map_cons, List.nodup_cons] at he
        have ih := ih he.2
        rw [List.filter_cons]
        by_cases hep : e.1 = p.1
        · rw [if_pos (by simpa using hep), List.map_cons, List.map_cons, ih, if_neg (by rw [← hep]; exact he.1),
            if_pos (by simp [hep])]
        · rw [if_neg (by simpa using hep), ih]
          have : p.1 ≠ e.1 := fun h => hep h.symm
          simp only [List.map_cons, List.mem_cons, this, false_or]
    rw [key]
    by_cases hm : p.1 ∈ energy.map Prod.fst
    · rw [if_pos hm, if_pos (by simpa using hm)]; rfl
    · rw [if_neg hm, if_neg (by simpa using hm)]; rfl

example : irradianceScatter [(0, some 500), (1, some 600), (3, none)] [(1, some 2), (3, some 4), (4, some 1)] =
    [(1, some 600, some 2), (3, none, some 4)] := by decide +kernel

end Verif.Plots
