import Verif.Props.AggregationCal

/-! C132: months, years and weeks from hourly or daily aggregates. -/

namespace Verif

open Chains

namespace Spec

/-- the energies a user has after a first aggregation over periods of fixed length -/
def stepEnergy (energy insol : Series) (freq : Int) : Series :=
  (aggregationInsolOn energy insol freq).map fun p => (p.1, asCell p.2)

/-- and the insolation of these periods -/
def stepInsol (energy insol : Series) (freq : Int) : Series :=
  (aggregationInsolOn energy insol freq).map fun p => (p.1, some (insolationOf insol p.1 freq))

end Spec

open Spec

theorem sum_nested_rows {f : Int} {ls : List Int} (hn : ls.Nodup) (P : Int → Bool) {s : Series}
    (hcov : ∀ r ∈ s, ∃ l0 ∈ ls, (∀ l ∈ ls, (l ≤ r.1 ∧ r.1 < l + f) ↔ l = l0) ∧ P l0 = P r.1) (g : Int × Cell → ℚ) :
    ((ls.filter P).map fun l => ((rowsIn s l f).map g).sum).sum = ((s.filter fun r => P r.1).map g).sum := by
  induction s with
  | nil => simp [rowsIn]
  | cons r s ih =>
    have i := ih fun x hx => hcov x (List.mem_cons_of_mem _ hx)
    obtain ⟨l0, h0, hu, hP⟩ := hcov r (List.mem_cons_self ..)
    rw [sum_filter_ite] at i ⊢
    have e1 : ∀ l : Int, (if P l = true then ((rowsIn (r :: s) l f).map g).sum else 0) =
        (if (l ≤ r.1 ∧ r.1 < l + f) then (if P l = true then g r else 0) else 0) +
          (if P l = true then ((rowsIn s l f).map g).sum else 0) := by
      intro l
      unfold rowsIn
      by_cases a : l ≤ r.1 ∧ r.1 < l + f <;> by_cases b : P l = true <;> simp [a, b]
    simp only [e1]
    rw [sum_add_map, i]
    have e2 : (ls.map fun l => if (l ≤ r.1 ∧ r.1 < l + f) then (if P l = true then g r else 0) else 0) =
        ls.map fun l => if (l ≤ r.1 ∧ r.1 < l + f) then (if P r.1 = true then g r else 0) else 0 := by
      apply List.map_congr_left
      intro l hl
      by_cases a : l ≤ r.1 ∧ r.1 < l + f
      · rw [if_pos a, if_pos a, (hu l hl).mp a, hP]
      · rw [if_neg a, if_neg a]
    rw [e2, sum_one_label hn h0 hu]
    by_cases b : P r.1 = true <;> simp [b]

/-- the periods of a day are days or parts of days -/
theorem label_same_day {f t : Int} (hf : 0 < f) (hd : f ∣ dayNs) : (f * (t / f)) / dayNs = t / dayNs ∧
    ∀ u, u < f * (t / f) + f → u / dayNs ≤ t / dayNs := by
  obtain ⟨m, hm⟩ := hd
  have hp := dayNs_pos
  have h1 := Int.mul_ediv_add_emod t f
  have h2 := Int.emod_nonneg t (ne_of_gt hf)
  have h3 := Int.emod_lt_of_pos t hf
  have hm0 : 0 < m := by
    rw [hm] at hp
    exact Int.pos_of_mul_pos_left (by rwa [mul_comm] at hp) hf
  have q : ∀ x : Int, x / dayNs = x / f / m := by
    intro x; rw [hm, Int.ediv_ediv_of_nonneg (le_of_lt hf)]
  refine ⟨?_, fun u hu => ?_⟩
  · rw [q, q, Int.mul_ediv_cancel_left _ (ne_of_gt hf)]
  · rw [q, q]
    apply Int.ediv_le_ediv hm0
    apply Int.lt_add_one_iff.mp
    apply Int.ediv_lt_of_lt_mul hf
    linarith

theorem periodNo_day {c : CalFreq} {t u : Int} (h : t / dayNs = u / dayNs) : periodNo c t = periodNo c u := by
  cases c <;> simp only [periodNo, h]

theorem periodNo_day_le {c : CalFreq} {t u : Int} (h : t / dayNs ≤ u / dayNs) : periodNo c t ≤ periodNo c u := by
  have hp := dayNs_pos
  have e : ∀ x : Int, periodNo c x = periodNo c (x / dayNs * dayNs) := fun x =>
    periodNo_day (by rw [Int.mul_ediv_cancel _ (ne_of_gt hp)])
  rw [e t, e u]
  exact periodNo_mono c (Int.mul_le_mul_of_nonneg_right h (le_of_lt hp))

/-- **C132 (in steps).** Aggregating first over periods that divide a day, and the result together with the insolation of
those periods over months, years or weeks, gives the months, years or weeks of the record itself. -/
theorem C132_two_steps {energy insol : Series} {freq : Int} (hf : 0 < freq) (hd : freq ∣ dayNs)
    (hn : (insol.map Prod.fst).Nodup) (hw : ∀ r ∈ insol, ∀ w, r.2 = some w → 0 ≤ w) (c : CalFreq) (L : Int) (v : Flt) :
    (L, v) ∈ aggregationInsolCal (stepEnergy energy insol freq) (stepInsol energy insol freq) c ↔
      (L, v) ∈ aggregationInsolCal energy insol c := by
  set A := aggregationInsolOn energy insol freq with hA
  have hAmem : ∀ l x, (l, x) ∈ A ↔ _ := fun l x => C131_paired_partial (energy := energy) (L := l) (v := x) hf hd hn
  have hAl : A.map Prod.fst = sortedUnion ((resampleSum (alignedProduct energy insol) freq).map Prod.fst ++
      (resampleSum insol freq).map Prod.fst) := by
    rw [hA]; unfold aggregationInsolOn; simp [Function.comp_def]
  have hAn : (A.map Prod.fst).Nodup := by rw [hAl]; exact (sortedUnion_sorted _).imp fun h => ne_of_lt h
  have hlab : ∀ l, l ∈ A.map Prod.fst ↔ freq ∣ l ∧ (∃ t, SampledAt energy insol t ∧ t < l + freq) ∧
      ∃ t, SampledAt energy insol t ∧ l ≤ t := by
    intro l
    constructor
    · intro h
      obtain ⟨⟨l', x⟩, hm, rfl⟩ := List.mem_map.mp h
      obtain ⟨a, b, d, -⟩ := (hAmem l' x).mp hm
      exact ⟨a, b, d⟩
    · rintro ⟨a, b, d⟩
      exact List.mem_map.mpr ⟨(l, _), (hAmem l _).mpr ⟨a, b, d, rfl⟩, rfl⟩
  have hI1 : (stepInsol energy insol freq).map Prod.fst = A.map Prod.fst := by
    unfold stepInsol; rw [← hA]; simp [Function.comp_def]
  have hE1 : (stepEnergy energy insol freq).map Prod.fst = A.map Prod.fst := by
    unfold stepEnergy; rw [← hA]; simp [Function.comp_def]
  have hn1 : ((stepInsol energy insol freq).map Prod.fst).Nodup := by rw [hI1]; exact hAn
  have hS : ∀ l, SampledAt (stepEnergy energy insol freq) (stepInsol energy insol freq) l ↔ l ∈ A.map Prod.fst := by
    intro l; unfold SampledAt; rw [hI1, hE1]; exact or_self_iff
  -- label of a sample
  have hown : ∀ t, SampledAt energy insol t → freq * (t / freq) ∈ A.map Prod.fst := by
    intro t ht
    have h1 := Int.mul_ediv_add_emod t freq
    have h2 := Int.emod_nonneg t (ne_of_gt hf)
    have h3 := Int.emod_lt_of_pos t hf
    exact (hlab _).mpr ⟨Dvd.intro _ rfl, ⟨t, ht, by omega⟩, ⟨t, ht, by omega⟩⟩
  rw [C132_periods hn1, C132_periods hn]
  by_cases hlabel : IsLabel c L
  swap
  · simp [hlabel]
  obtain ⟨k, rfl⟩ := (isLabel_iff c L).mp hlabel
  have c1 : (∃ t, SampledAt (stepEnergy energy insol freq) (stepInsol energy insol freq) t ∧
      (InCal c (periodLabel c k) t ∨ t < periodLabel c k)) ↔
      ∃ t, SampledAt energy insol t ∧ (InCal c (periodLabel c k) t ∨ t < periodLabel c k) := by
    simp only [← not_after_iff, hS]
    constructor
    · rintro ⟨l, hl, hk⟩
      obtain ⟨⟨m, rfl⟩, ⟨t, ht, hlt⟩, -⟩ := (hlab l).mp hl
      refine ⟨t, ht, le_trans (periodNo_day_le ?_) hk⟩
      have := (label_same_day (t := freq * m) hf hd).2 t
      rw [Int.mul_ediv_cancel_left _ (ne_of_gt hf)] at this
      exact this hlt
    · rintro ⟨t, ht, hk⟩
      refine ⟨_, hown t ht, le_trans (le_of_eq (periodNo_day ?_)) hk⟩
      exact (label_same_day hf hd).1
  have c2 : (∃ t, SampledAt (stepEnergy energy insol freq) (stepInsol energy insol freq) t ∧
      (InCal c (periodLabel c k) t ∨ periodLabel c k < t)) ↔
      ∃ t, SampledAt energy insol t ∧ (InCal c (periodLabel c k) t ∨ periodLabel c k < t) := by
    simp only [← not_before_iff, hS]
    constructor
    · rintro ⟨l, hl, hk⟩
      obtain ⟨-, -, ⟨t, ht, hle⟩⟩ := (hlab l).mp hl
      exact ⟨t, ht, le_trans hk (periodNo_mono c hle)⟩
    · rintro ⟨t, ht, hk⟩
      refine ⟨_, hown t ht, le_trans hk (le_of_eq (periodNo_day ?_))⟩
      exact (label_same_day hf hd).1.symm
  -- nested sums
  have hcov : ∀ r ∈ insol, ∃ l0 ∈ A.map Prod.fst, (∀ l ∈ A.map Prod.fst, (l ≤ r.1 ∧ r.1 < l + freq) ↔ l = l0) ∧
      decide (InCal c (periodLabel c k) l0) = decide (InCal c (periodLabel c k) r.1) := by
    intro r hr
    have h1 := Int.mul_ediv_add_emod r.1 freq
    have h2 := Int.emod_nonneg r.1 (ne_of_gt hf)
    have h3 := Int.emod_lt_of_pos r.1 hf
    refine ⟨freq * (r.1 / freq), hown r.1 (Or.inr (List.mem_map.mpr ⟨r, hr, rfl⟩)), ?_, ?_⟩
    · intro l hl
      obtain ⟨⟨m, rfl⟩, -⟩ := (hlab l).mp hl
      constructor
      · rintro ⟨a, b⟩
        have : r.1 / freq = m := by
          apply le_antisymm
          · apply Int.lt_add_one_iff.mp
            apply Int.ediv_lt_of_lt_mul hf
            linarith
          · apply (Int.le_ediv_iff_mul_le hf).mpr
            linarith
        rw [this]
      · intro e; rw [e]; omega
    · apply decide_eq_decide.mpr
      rw [inCal_iff, inCal_iff, periodNo_day (label_same_day hf hd).1]
  have hden : insolationCal (stepInsol energy insol freq) c (periodLabel c k) = insolationCal insol c (periodLabel c k) := by
    have := sum_nested_rows hAn (fun l => decide (InCal c (periodLabel c k) l)) hcov fun r => r.2.getD 0
    unfold insolationCal stepInsol
    rw [← hA, ← this, List.filter_map, List.filter_map, List.map_map, List.map_map]
    rfl
  have hlook : ∀ l x, (l, x) ∈ A → lookupK (stepEnergy energy insol freq) l =
      asCell (Flt.ofDiv (weightedOf energy insol l freq) (insolationOf insol l freq)) := by
    intro l x hx
    apply lookupK_mem_value (by rw [hE1]; exact List.mem_map.mpr ⟨_, hx, rfl⟩)
    intro y hy
    unfold stepEnergy at hy
    rw [← hA] at hy
    obtain ⟨⟨l', z⟩, hz, e⟩ := List.mem_map.mp hy
    simp only [Prod.mk.injEq] at e
    obtain ⟨rfl, rfl⟩ := e
    rw [((hAmem l' z).mp hz).2.2.2]
  have hcell : ∀ l, insolationOf insol l freq *
      (asCell (Flt.ofDiv (weightedOf energy insol l freq) (insolationOf insol l freq))).getD 0 =
      weightedOf energy insol l freq := by
    intro l
    by_cases h0 : insolationOf insol l freq = 0
    · have hnn : ∀ x ∈ (rowsIn insol l freq).map fun r => r.2.getD 0, 0 ≤ x := by
        intro x hx
        obtain ⟨r, hr, rfl⟩ := List.mem_map.mp hx
        cases hi : r.2 with
        | none => simp
        | some w => simpa using hw r (List.mem_of_mem_filter hr) w hi
      have hz := sum_zero_nonneg hnn h0
      have hw0 : weightedOf energy insol l freq = 0 := by
        unfold weightedOf
        apply List.sum_eq_zero
        intro x hx
        obtain ⟨r, hr, rfl⟩ := List.mem_map.mp hx
        rw [hz _ (List.mem_map.mpr ⟨r, hr, rfl⟩), zero_mul]
      rw [h0, hw0, zero_mul]
    · simp only [Flt.ofDiv, h0, if_false, asCell, Option.getD_some]
      field_simp
  have hnum : weightedCal (stepEnergy energy insol freq) (stepInsol energy insol freq) c (periodLabel c k) =
      weightedCal energy insol c (periodLabel c k) := by
    have := sum_nested_rows hAn (fun l => decide (InCal c (periodLabel c k) l)) hcov
      fun r => r.2.getD 0 * (lookupK energy r.1).getD 0
    unfold weightedCal
    rw [← this]
    unfold stepInsol
    rw [← hA, List.filter_map, List.filter_map, List.map_map, List.map_map]
    congr 1
    apply List.map_congr_left
    rintro ⟨l, x⟩ hx
    have hx' := List.mem_of_mem_filter hx
    simp only [Function.comp_apply, Option.getD_some]
    rw [hlook l x hx', hcell l]
    rfl
  rw [c1, c2, hden, hnum]

example : aggregationInsolCal (stepEnergy exLeap.1 exLeap.2 dayNs) (stepInsol exLeap.1 exLeap.2 dayNs) .monthEnd =
    aggregationInsolCal exLeap.1 exLeap.2 .monthEnd := by decide +kernel

end Verif
