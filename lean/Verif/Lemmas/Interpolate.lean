import Verif.Model.Normalization
import Verif.Lemmas.Frame

/-! Refinement of `_interpolate_series` to a pointwise description. -/

namespace Verif

theorem eq_of_sorted_mem {d e : List (Int × ℚ)} (hd : StrictSorted (keys d))
    (he : StrictSorted (keys e)) (h : ∀ r, r ∈ d ↔ r ∈ e) : d = e := by
  have pd : d.Pairwise (fun x y => x.1 < y.1) := List.pairwise_map.mp hd
  have pe : e.Pairwise (fun x y => x.1 < y.1) := List.pairwise_map.mp he
  have nd : d.Nodup := pd.imp (fun h e => by subst e; exact lt_irrefl _ h)
  have ne : e.Nodup := pe.imp (fun h e => by subst e; exact lt_irrefl _ h)
  have hp : d.Perm e := (List.perm_ext_iff_of_nodup nd ne).mpr h
  exact hp.eq_of_pairwise (fun a b _ _ h1 h2 => absurd h1 (not_lt.mpr h2.le)) pd pe

/-- `x ≤ limit` with a possibly missing limit -/
def within (x : ℚ) (M : Cell) : Bool := cellCmp (fun a b => decide (a ≤ b)) (some x) M

theorem within_iff {x : ℚ} {M : Cell} : within x M = true ↔ ∃ m, M = some m ∧ x ≤ m := by
  cases M <;> simp [within, cellCmp]

/-- pointwise value -/
def valueAt (d : List (Int × ℚ)) (M : Cell) (t : Int) : Cell :=
  match lookupK (toSeries d) t with
  | some v => if within 0 M then some v else none
  | none =>
    match prevRow d t, nextRow d t with
    | some (a, va), some (b, vb) =>
      if within ((b : ℚ) - a) M then some (lerpAt a va b vb t) else none
    | _, _ => none

theorem keys_toSeries (d : List (Int × ℚ)) : keys (toSeries d) = keys d := by
  simp [keys, toSeries, Function.comp_def]

theorem mem_toSeries {d : List (Int × ℚ)} {t : Int} {v : ℚ} :
    (t, some v) ∈ toSeries d ↔ (t, v) ∈ d := by
  simp [toSeries]

theorem lookup_toSeries_none {d : List (Int × ℚ)} {t : Int} :
    lookupK (toSeries d) t = none ↔ t ∉ keys d := by
  constructor
  · intro h hm
    rw [← keys_toSeries] at hm
    have := lookupK_mem hm
    rw [h] at this
    simp [toSeries] at this
  · intro h; apply lookupK_of_not_mem; rwa [keys_toSeries]

theorem lookup_toSeries_some {d : List (Int × ℚ)} (hs : StrictSorted (keys d)) {t : Int} {v : ℚ} :
    lookupK (toSeries d) t = some v ↔ (t, v) ∈ d := by
  constructor
  · intro h; exact mem_toSeries.mp (lookupK_eq_some h)
  · intro h
    exact lookupK_of_mem (by rw [keys_toSeries]; exact hs.nodup) (mem_toSeries.mpr h)

theorem StrictSorted.sublist {l l' : List Int} (h : l.Sublist l') (hs : StrictSorted l') :
    StrictSorted l := List.Pairwise.sublist h hs

theorem adjacent_gap_pos {d : List (Int × ℚ)} (hs : StrictSorted (keys d)) {a b : Int}
    {va vb : ℚ} (h : Adjacent d (a, va) (b, vb)) : (0 : ℚ) < (b : ℚ) - a := by
  have := h.lt hs
  have : (a : ℚ) < b := by exact_mod_cast this
  linarith

/-- gap between neighbours around `t`, as seen after `bfill` -/
theorem firstSomeGe_gaps_adjacent {d : List (Int × ℚ)} (hs : StrictSorted (keys d)) {a b : Int}
    {va vb : ℚ} (h : Adjacent d (a, va) (b, vb)) {t : Int} (h1 : a < t) (h2 : t < b) :
    firstSomeGe (gaps (keys d)) t = some ((b : ℚ) - a) := by
  rw [firstSomeGe_eq_some (by rw [keys_gaps]; exact hs)]
  refine ⟨b, mem_gaps_some.mpr ⟨a, adjacent_keys.mpr ⟨va, vb, h⟩, rfl⟩, h2.le, ?_⟩
  intro w g hw htw
  obtain ⟨c, hc, _⟩ := mem_gaps_some.mp hw
  have hw' : w ∈ keys d := by obtain ⟨l1, l2, e⟩ := hc; rw [e]; simp
  obtain ⟨l1, l2, rfl⟩ := h
  simp only [keys, StrictSorted, List.map_append, List.map_cons, List.pairwise_append,
    List.pairwise_cons, List.mem_map, List.mem_cons] at hs
  simp only [keys, List.map_append, List.map_cons, List.mem_append, List.mem_cons,
    List.mem_map] at hw'
  rcases hw' with ⟨r, hr, rfl⟩ | rfl | rfl | ⟨r, hr, rfl⟩
  · have := hs.2.2 r.1 ⟨r, hr, rfl⟩ a (by simp); omega
  · omega
  · exact le_refl _
  · exact (hs.2.1.2.1 r.1 ⟨r, hr, rfl⟩).le

theorem firstSomeGe_gaps_none {d : List (Int × ℚ)} {t : Int} (hn : ∀ r ∈ d, r.1 < t) :
    firstSomeGe (gaps (keys d)) t = none := by
  rw [firstSomeGe_eq_none]
  intro u g hu
  obtain ⟨c, ⟨l1, l2, e⟩, _⟩ := mem_gaps_some.mp hu
  have : u ∈ keys d := by rw [e]; simp
  obtain ⟨r, hr, rfl⟩ := List.mem_map.mp this
  exact hn r hr

theorem interpolateSeries_eq {ts : Series} (hs : StrictSorted (keys ts)) (target : List Int)
    (maxTd : Option ℚ) :
    interpolateSeries ts target maxTd =
      .ok (target.map fun t => (t, valueAt (dropna ts) (gapLimit (keys (dropna ts)) maxTd) t)) := by
  have hd := dropna_sorted hs
  generalize hD : dropna ts = d at hd
  unfold interpolateSeries
  simp only [hD]
  rw [if_neg (not_not.mpr hd.nodup)]
  have hdk : d.map Prod.fst = keys d := rfl
  simp only [hdk]
  generalize gapLimit (keys d) maxTd = M
  congr 1
  apply List.map_congr_left
  intro t htar
  congr 1
  -- the union index and its columns
  have hU := sortedUnion_sorted (keys d ++ target)
  have hmemU : ∀ u, u ∈ sortedUnion (keys d ++ target) ↔ u ∈ keys d ∨ u ∈ target := by
    intro u; rw [mem_sortedUnion, List.mem_append]
  generalize sortedUnion (keys d ++ target) = U at hU hmemU
  have hkeysR : keys (reindexK (gaps (keys d)) U) = U := keys_reindexK _ _
  have hfs : ∀ u, firstSomeGe (reindexK (gaps (keys d)) U) u =
      firstSomeGe (gaps (keys d)) u := by
    intro u
    apply firstSomeGe_congr (by rw [hkeysR]; exact hU) (by rw [keys_gaps]; exact hd)
    intro w a
    apply mem_reindexK_some
    · rw [keys_gaps]; exact hd.nodup
    · intro z hz; rw [keys_gaps] at hz; exact (hmemU z).mpr (Or.inl hz)
  rw [bfillK_eq (by rw [hkeysR]; exact hU)]
  simp only [hfs]
  -- rows of the filtered frame
  set K := (((reindexK (gaps (keys d)) U).map fun r =>
      (r.1, firstSomeGe (gaps (keys d)) r.1)).map fun r =>
      if r.1 ∈ keys d then (r.1, some (0 : ℚ)) else r).filter
        (fun r => cellCmp (fun a b => decide (a ≤ b)) r.2 M) with hK
  have hmemK : ∀ u g, (u, g) ∈ K ↔ u ∈ U ∧
      g = (if u ∈ keys d then some 0 else firstSomeGe (gaps (keys d)) u) ∧
      cellCmp (fun a b => decide (a ≤ b)) g M = true := by
    intro u g
    simp only [hK, List.mem_filter, List.mem_map, reindexK]
    constructor
    · rintro ⟨⟨r, ⟨s, ⟨w, hw, rfl⟩, rfl⟩, hr⟩, hg⟩
      simp only at hr
      split at hr
      · next hin =>
        simp only [Prod.mk.injEq] at hr
        obtain ⟨rfl, rfl⟩ := hr
        exact ⟨hw, by rw [if_pos hin], hg⟩
      · next hin =>
        simp only [Prod.mk.injEq] at hr
        obtain ⟨rfl, rfl⟩ := hr
        exact ⟨hw, by rw [if_neg hin], hg⟩
    · rintro ⟨hu, rfl, hg⟩
      refine ⟨⟨_, ⟨_, ⟨u, hu, rfl⟩, rfl⟩, ?_⟩, hg⟩
      simp only
      split
      · rfl
      · rfl
  have hKkeys : (keys K).Sublist U := by
    have h1 : (keys K).Sublist (keys (((reindexK (gaps (keys d)) U).map fun r =>
      (r.1, firstSomeGe (gaps (keys d)) r.1)).map fun r =>
      if r.1 ∈ keys d then (r.1, some (0 : ℚ)) else r)) := by
      rw [hK]; exact List.filter_sublist.map _
    have h2 : keys (((reindexK (gaps (keys d)) U).map fun r =>
      (r.1, firstSomeGe (gaps (keys d)) r.1)).map fun r =>
      if r.1 ∈ keys d then (r.1, some (0 : ℚ)) else r) = U := by
      simp only [keys, reindexK, List.map_map]
      conv_rhs => rw [← List.map_id U]
      apply List.map_congr_left
      intro u _
      simp only [Function.comp_apply, id_eq]
      split <;> rfl
    rw [h2] at h1; exact h1
  have hKs : StrictSorted (keys K) := hU.sublist hKkeys
  clear_value K
  set V := K.map fun r => (r.1, lookupK (toSeries d) r.1) with hV
  have hVkeys : keys V = keys K := by simp [hV, keys, Function.comp_def]
  have hVs : StrictSorted (keys V) := by rw [hVkeys]; exact hKs
  have hmemV : ∀ u x, (u, x) ∈ V ↔ u ∈ keys K ∧ x = lookupK (toSeries d) u := by
    intro u x
    simp only [hV, List.mem_map, Prod.mk.injEq, keys]
    constructor
    · rintro ⟨r, hr, rfl, rfl⟩; exact ⟨⟨r, hr, rfl⟩, rfl⟩
    · rintro ⟨⟨r, hr, rfl⟩, rfl⟩; exact ⟨r, hr, rfl, rfl⟩
  have htU : t ∈ U := (hmemU t).mpr (Or.inr htar)
  -- is `t` a row of the filtered frame?
  have hin : t ∈ keys K ↔
      cellCmp (fun a b => decide (a ≤ b))
        (if t ∈ keys d then some 0 else firstSomeGe (gaps (keys d)) t) M = true := by
    constructor
    · intro h
      obtain ⟨⟨u, g⟩, hr, rfl⟩ := List.mem_map.mp h
      obtain ⟨_, rfl, hc⟩ := (hmemK u g).mp hr
      exact hc
    · intro h
      exact List.mem_map.mpr ⟨(t, _), (hmemK t _).mpr ⟨htU, rfl, h⟩, rfl⟩
  by_cases hM0 : within 0 M = true
  · -- every valid row survives
    have hdV : dropna V = d := by
      apply eq_of_sorted_mem (dropna_sorted hVs) hd
      rintro ⟨u, v⟩
      rw [mem_dropna, hmemV]
      constructor
      · rintro ⟨_, h⟩; exact (lookup_toSeries_some hd).mp h.symm
      · intro h
        refine ⟨?_, ((lookup_toSeries_some hd).mpr h).symm⟩
        have huk : u ∈ keys d := List.mem_map.mpr ⟨_, h, rfl⟩
        refine List.mem_map.mpr ⟨(u, some 0), (hmemK u _).mpr ⟨(hmemU u).mpr (Or.inl huk), ?_, ?_⟩, rfl⟩
        · rw [if_pos huk]
        · exact hM0
    unfold valueAt
    by_cases htK : t ∈ keys K
    · rw [lookup_interpFrom hVs none ((hmemV t _).mpr ⟨htK, rfl⟩), hdV]
      cases hl : lookupK (toSeries d) t with
      | some v => simp [hM0]
      | none =>
        have htd : t ∉ keys d := lookup_toSeries_none.mp hl
        simp only [Option.none_or, Option.or_none]
        cases hp : prevRow d t with
        | none => rfl
        | some x =>
          obtain ⟨a, va⟩ := x
          cases hn : nextRow d t with
          | none =>
            exfalso
            rw [hin, if_neg htd, firstSomeGe_gaps_none] at htK
            · simp [cellCmp] at htK
            · intro r hr
              unfold nextRow at hn
              rw [List.head?_eq_none_iff, List.filter_eq_nil_iff] at hn
              have h1 := hn r hr
              have h2 : r.1 ≠ t := fun e => htd (e ▸ List.mem_map.mpr ⟨r, hr, rfl⟩)
              simp at h1; omega
          | some y =>
            obtain ⟨b, vb⟩ := y
            obtain ⟨hadj, h1, h2⟩ := adjacent_of_prev_next hd htd hp hn
            rw [hin, if_neg htd, firstSomeGe_gaps_adjacent hd hadj h1 h2] at htK
            simp only [combine]
            exact (if_pos htK).symm
    · rw [lookupK_of_not_mem (by rw [keys_interpFrom, hVkeys]; exact htK)]
      have htd : t ∉ keys d := by
        intro h
        exact htK (hin.mpr (by rw [if_pos h]; exact hM0))
      rw [lookup_toSeries_none.mpr htd]
      simp only
      cases hp : prevRow d t with
      | none => rfl
      | some x =>
        cases hn : nextRow d t with
        | none => rfl
        | some y =>
          obtain ⟨a, va⟩ := x
          obtain ⟨b, vb⟩ := y
          obtain ⟨hadj, h1, h2⟩ := adjacent_of_prev_next hd htd hp hn
          rw [hin, if_neg htd, firstSomeGe_gaps_adjacent hd hadj h1 h2] at htK
          simp only
          exact (if_neg htK).symm
  · -- nothing survives: all gaps are positive
    have hneg : ∀ g : ℚ, 0 ≤ g → ¬ within g M = true := by
      intro g hg h
      obtain ⟨m, rfl, hm⟩ := within_iff.mp h
      exact hM0 (within_iff.mpr ⟨m, rfl, hg.trans hm⟩)
    have htK : t ∉ keys K := by
      rw [hin]
      split
      · exact hM0
      · cases hf : firstSomeGe (gaps (keys d)) t with
        | none => simp [cellCmp]
        | some g =>
          apply hneg
          rw [firstSomeGe_eq_some (by rw [keys_gaps]; exact hd)] at hf
          obtain ⟨u, hu, _, _⟩ := hf
          obtain ⟨c, hc, rfl⟩ := mem_gaps_some.mp hu
          obtain ⟨vc, vu, hadj⟩ := adjacent_keys.mp hc
          exact (adjacent_gap_pos hd hadj).le
    rw [lookupK_of_not_mem (by rw [keys_interpFrom, hVkeys]; exact htK)]
    unfold valueAt
    cases hl : lookupK (toSeries d) t with
    | some v => simp [hM0]
    | none =>
      have htd : t ∉ keys d := lookup_toSeries_none.mp hl
      simp only
      cases hp : prevRow d t with
      | none => rfl
      | some x =>
        cases hn : nextRow d t with
        | none => rfl
        | some y =>
          obtain ⟨a, va⟩ := x
          obtain ⟨b, vb⟩ := y
          obtain ⟨hadj, h1, h2⟩ := adjacent_of_prev_next hd htd hp hn
          simp only
          rw [if_neg (hneg _ (adjacent_gap_pos hd hadj).le)]

end Verif
