import Verif.Lemmas.Aggregation

/-! # Properties C01–C03 (insolation-weighted aggregation) -/

namespace Verif

open Spec

/-- C01. For a reported period whose samples are complete, with non-negative insolation of
positive total, the value reported is the insolation-weighted mean of the samples of the period
and lies between any lower and any upper bound of the energies in the period. -/
theorem C01_weighted_mean {rows : List InsolRow} {freq L : Int} {v : Flt} (hf : 0 < freq)
    (h : (L, v) ∈ aggregationInsol rows freq)
    (hc : ∀ r ∈ inPeriod rows L freq, r.insol ≠ none ∧ r.energy ≠ none)
    (hw : ∀ r ∈ inPeriod rows L freq, ∀ w, r.insol = some w → 0 ≤ w)
    (hpos : 0 < totalWeight (pairs (inPeriod rows L freq))) :
    ∃ q : ℚ, v = .fin q ∧
      q * totalWeight (pairs (inPeriod rows L freq)) =
        weightedSum (pairs (inPeriod rows L freq)) ∧
      (∀ m, (∀ r ∈ inPeriod rows L freq, ∀ e, r.energy = some e → m ≤ e) → m ≤ q) ∧
      (∀ m, (∀ r ∈ inPeriod rows L freq, ∀ e, r.energy = some e → e ≤ m) → q ≤ m) := by
  have hv := mem_aggregationInsol hf h
  obtain ⟨h1, h2⟩ := sums_of_guard (rows := inPeriod rows L freq)
    (fun r hr he => absurd he (hc r hr).2)
  rw [h1, h2, ofDiv_pos hpos] at hv
  refine ⟨_, hv, by field_simp, ?_, ?_⟩
  all_goals
    intro m hm
    have hp : ∀ x ∈ pairs (inPeriod rows L freq),
        ∃ r ∈ inPeriod rows L freq, r.insol = some x.1 ∧ r.energy = some x.2 := by
      intro x hx
      simp only [pairs, List.mem_filterMap] at hx
      obtain ⟨r, hr, hx⟩ := hx
      refine ⟨r, hr, ?_⟩
      rcases r with ⟨t, _ | w, _ | e⟩ <;> simp at hx ⊢
      subst hx; simp
    have hw' : ∀ x ∈ pairs (inPeriod rows L freq), 0 ≤ x.1 := by
      intro x hx
      obtain ⟨r, hr, a, _⟩ := hp x hx
      exact hw r hr _ a
  · rw [le_div_iff₀ hpos]
    apply weightedSum_ge hw'
    intro x hx
    obtain ⟨r, hr, _, b⟩ := hp x hx
    exact hm r hr _ b
  · rw [div_le_iff₀ hpos]
    apply weightedSum_le hw'
    intro x hx
    obtain ⟨r, hr, _, b⟩ := hp x hx
    exact hm r hr _ b

/-- Two hourly samples of one day meeting the hypotheses of `C01_weighted_mean`. -/
example : (0, Flt.fin (7/4)) ∈
    aggregationInsol [⟨3600, some 1, some 1⟩, ⟨7200, some 3, some 2⟩] dayNs := by decide +kernel

/-- C01 (constant series). A constant energy series is returned unchanged. -/
theorem C01_constant {rows : List InsolRow} {freq L : Int} {v : Flt} {c : ℚ} (hf : 0 < freq)
    (h : (L, v) ∈ aggregationInsol rows freq)
    (hc : ∀ r ∈ rows, r.insol ≠ none ∧ r.energy = some c)
    (hw : ∀ r ∈ rows, ∀ w, r.insol = some w → 0 ≤ w)
    (hpos : 0 < totalWeight (pairs (inPeriod rows L freq))) : v = .fin c := by
  have hsub : ∀ r ∈ inPeriod rows L freq, r ∈ rows := fun r hr => (List.mem_filter.mp hr).1
  obtain ⟨q, hq, _, h1, h2⟩ := C01_weighted_mean hf h
    (fun r hr => ⟨(hc r (hsub r hr)).1, by simp [(hc r (hsub r hr)).2]⟩)
    (fun r hr => hw r (hsub r hr)) hpos
  have a := h1 c (fun r hr e he => by rw [(hc r (hsub r hr)).2] at he; cases he; exact le_refl _)
  have b := h2 c (fun r hr e he => by rw [(hc r (hsub r hr)).2] at he; cases he; exact le_refl _)
  rw [hq, le_antisymm b a]

example : (0, Flt.fin 2) ∈
    aggregationInsol [⟨3600, some 1, some 2⟩, ⟨7200, some 3, some 2⟩] dayNs := by decide +kernel

/-- C02 (locality). Two data sets that agree on the samples of a period report the same value for
that period, whatever else they contain. -/
theorem C02_local {rows rows' : List InsolRow} {freq L : Int} {v v' : Flt} (hf : 0 < freq)
    (h : (L, v) ∈ aggregationInsol rows freq) (h' : (L, v') ∈ aggregationInsol rows' freq)
    (hsame : inPeriod rows L freq = inPeriod rows' L freq) : v = v' := by
  rw [mem_aggregationInsol hf h, mem_aggregationInsol hf h', hsame]

example : ∃ v, (0, v) ∈ aggregationInsol [⟨3600, some 1, some 2⟩] dayNs ∧
    (0, v) ∈ aggregationInsol [⟨3600, some 1, some 2⟩, ⟨dayNs + 7, some 3, some 9⟩] dayNs :=
  ⟨.fin 2, by decide +kernel, by decide +kernel⟩

/-- C02 (completeness). Every sample falls in exactly one reported period. -/
theorem C02_complete {rows : List InsolRow} {freq : Int} (hf : 0 < freq)
    {r : InsolRow} (hr : r ∈ rows) :
    ∃! p, p ∈ aggregationInsol rows freq ∧ p.1 ≤ r.t ∧ r.t < p.1 + freq := by
  cases rows with
  | nil => simp at hr
  | cons r0 rest =>
    have hlo : minT r0.t (rest.map (·.t)) ≤ r.t := by
      obtain ⟨a, b⟩ := foldl_min_le r0.t (rest.map (·.t))
      rcases List.mem_cons.mp hr with rfl | hr
      · exact a
      · exact b _ (List.mem_map.mpr ⟨r, hr, rfl⟩)
    have hhi : r.t ≤ maxT r0.t (rest.map (·.t)) := by
      obtain ⟨a, b⟩ := le_foldl_max r0.t (rest.map (·.t))
      rcases List.mem_cons.mp hr with rfl | hr
      · exact a
      · exact b _ (List.mem_map.mpr ⟨r, hr, rfl⟩)
    simp only [aggregationInsol]
    generalize minT r0.t (rest.map (·.t)) = first at *
    generalize maxT r0.t (rest.map (·.t)) = last at *
    generalize startDay first = origin at *
    have h1 := binOf_mono (origin := origin) hf hlo
    have h2 := binOf_mono (origin := origin) hf hhi
    refine ⟨_, ⟨List.mem_map.mpr ⟨binOf origin freq r.t, mem_intRange.mpr (by omega), rfl⟩,
      (binOf_eq_iff hf).mp rfl⟩, ?_⟩
    rintro ⟨L, v⟩ ⟨hp, hL⟩
    obtain ⟨b, _, hb⟩ := List.mem_map.mp hp
    simp only [Prod.mk.injEq] at hb
    obtain ⟨rfl, rfl⟩ := hb
    have hb' : binOf origin freq r.t = b := (binOf_eq_iff hf).mpr hL
    subst hb'
    rfl

/-- C02 (empty periods). A reported period without samples is NaN. -/
theorem C02_empty_period_nan {rows : List InsolRow} {freq L : Int} {v : Flt} (hf : 0 < freq)
    (h : (L, v) ∈ aggregationInsol rows freq) (he : inPeriod rows L freq = []) : v = .nan := by
  rw [mem_aggregationInsol hf h, he]
  simp [skipnaSum, valids, Flt.ofDiv]

/-- Days 0 and 2 have data, day 1 is reported as NaN. -/
example : (dayNs, Flt.nan) ∈
    aggregationInsol [⟨5, some 1, some 2⟩, ⟨2 * dayNs, some 3, some 2⟩] dayNs := by decide +kernel

/-- C03 fails for the code: a sample with missing energy but known insolation enters the
denominator only, so the aggregate (1/2) is below every energy measured in the period (1). -/
theorem C03_missing_energy_biases_low :
    ∃ (rows : List InsolRow) (q : ℚ), (0, Flt.fin q) ∈ aggregationInsol rows dayNs ∧
      (∀ r ∈ rows, ∃ w, r.insol = some w ∧ 0 < w) ∧
      (∃ r ∈ rows, r.energy ≠ none) ∧
      (∀ r ∈ rows, ∀ e, r.energy = some e → q < e) := by
  refine ⟨[⟨3600, some 1, some 1⟩, ⟨7200, some 1, none⟩], 1/2, by decide +kernel, ?_, ?_, ?_⟩
  · intro r hr; simp at hr; rcases hr with rfl | rfl <;> exact ⟨1, rfl, by norm_num⟩
  · exact ⟨_, List.mem_cons_self, by simp⟩
  · intro r hr e he; simp at hr
    rcases hr with rfl | rfl
    · simp at he; subst he; norm_num
    · simp at he

/-- C03, the part that holds: if every sample without energy also lacks insolation (or has zero
insolation), missing samples do not influence the bound. Missing for the full claim: samples with
missing energy and positive insolation, for which it is false (`C03_missing_energy_biases_low`). -/
theorem C03_missing_energy_partial {rows : List InsolRow} {freq L : Int} {v : Flt} (hf : 0 < freq)
    (h : (L, v) ∈ aggregationInsol rows freq)
    (hg : InsolGuard (inPeriod rows L freq))
    (hw : ∀ r ∈ inPeriod rows L freq, ∀ w, r.insol = some w → 0 ≤ w)
    (hpos : 0 < totalWeight (pairs (inPeriod rows L freq))) :
    ∃ q : ℚ, v = .fin q ∧
      (∀ m, (∀ p ∈ pairs (inPeriod rows L freq), m ≤ p.2) → m ≤ q) ∧
      (∀ m, (∀ p ∈ pairs (inPeriod rows L freq), p.2 ≤ m) → q ≤ m) := by
  have hv := mem_aggregationInsol hf h
  obtain ⟨h1, h2⟩ := sums_of_guard hg
  rw [h1, h2, ofDiv_pos hpos] at hv
  have hw' : ∀ x ∈ pairs (inPeriod rows L freq), 0 ≤ x.1 := by
    intro x hx
    simp only [pairs, List.mem_filterMap] at hx
    obtain ⟨r, hr, hx⟩ := hx
    rcases r with ⟨t, _ | w, _ | e⟩ <;> simp at hx
    subst hx; exact hw _ hr _ rfl
  refine ⟨_, hv, ?_, ?_⟩
  · intro m hm
    rw [le_div_iff₀ hpos]
    exact weightedSum_ge hw' hm
  · intro m hm
    rw [div_le_iff₀ hpos]
    exact weightedSum_le hw' hm

example : (0, Flt.fin (7/4)) ∈ aggregationInsol
    [⟨3600, some 1, some 1⟩, ⟨7200, some 3, some 2⟩, ⟨9000, none, none⟩, ⟨9001, none, some 5⟩]
    dayNs := by decide +kernel

end Verif
