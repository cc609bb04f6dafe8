import Verif.Lemmas.Aggregation

/-! # The periods of `aggregation_insol` (rdtools/aggregation.py)

C110. Which periods are reported, and what happens to them when the record grows.
The vocabulary is arithmetic only: divisibility of labels and comparison of timestamps. -/

namespace Verif

/-- every sample time lies between the extremes, and the extremes are sample times -/
theorem minT_mem (t : Int) (l : List Int) : minT t l ∈ t :: l := by
  unfold minT
  induction l generalizing t with
  | nil => simp
  | cons b l ih =>
    have h := ih (min t b)
    simp only [List.foldl_cons, List.mem_cons] at h ⊢
    rcases h with h | h
    · rw [h]; rcases le_total t b with hb | hb <;> simp [hb]
    · exact Or.inr (Or.inr h)

theorem maxT_mem (t : Int) (l : List Int) : maxT t l ∈ t :: l := by
  unfold maxT
  induction l generalizing t with
  | nil => simp
  | cons b l ih =>
    have h := ih (max t b)
    simp only [List.foldl_cons, List.mem_cons] at h ⊢
    rcases h with h | h
    · rw [h]; rcases le_total t b with hb | hb <;> simp [hb]
    · exact Or.inr (Or.inr h)

theorem intRange_lt (a : Int) (n : Nat) : (intRange a n).Pairwise (· < ·) := by
  induction n generalizing a with
  | zero => simp [intRange]
  | succ n ih =>
    simp only [intRange, List.pairwise_cons]
    exact ⟨fun x hx => by have := (mem_intRange.mp hx).1; omega, ih _⟩

/-- C110 (the periods). For any frequency of fixed length, the periods reported are exactly those
that lie a whole number of periods from midnight of the day of the earliest sample, end after the
earliest sample and start no later than the last one. -/
theorem C110_periods {rows : List InsolRow} {freq L m : Int} (hf : 0 < freq) {r0 : InsolRow}
    (h0 : r0 ∈ rows) (hmin : ∀ r ∈ rows, r0.t ≤ r.t)
    (hm : dayNs ∣ m) (hm0 : m ≤ r0.t) (hm1 : r0.t < m + dayNs) :
    L ∈ (aggregationInsol rows freq).map Prod.fst ↔
      freq ∣ L - m ∧ r0.t < L + freq ∧ ∃ r ∈ rows, L ≤ r.t := by
  cases rows with
  | nil => simp at h0
  | cons r1 rest =>
    have hlo : minT r1.t (rest.map (·.t)) = r0.t := by
      have hmem := minT_mem r1.t (rest.map (·.t))
      rw [← List.map_cons (f := fun x : InsolRow => x.t)] at hmem
      obtain ⟨r, hr, he⟩ := List.mem_map.mp hmem
      have h1 := hmin r hr
      obtain ⟨a, b⟩ := foldl_min_le r1.t (rest.map (·.t))
      have h2 : minT r1.t (rest.map (·.t)) ≤ r0.t := by
        rcases List.mem_cons.mp h0 with rfl | hr'
        · exact a
        · exact b _ (List.mem_map.mpr ⟨r0, hr', rfl⟩)
      omega
    have hor : startDay r0.t = m := by
      obtain ⟨k, rfl⟩ := hm
      have hd : (0 : Int) < dayNs := by decide
      unfold startDay
      have : r0.t / dayNs = k := by
        have h1 := Int.le_ediv_iff_mul_le (a := k) (b := r0.t) hd
        have h2 := Int.ediv_lt_iff_lt_mul (a := r0.t) (b := k + 1) hd
        have e : (k + 1) * dayNs = dayNs * k + dayNs := by ring
        have e' : k * dayNs = dayNs * k := by ring
        omega
      rw [this]; ring
    have hmaxmem := maxT_mem r1.t (rest.map (·.t))
    rw [← List.map_cons (f := fun x : InsolRow => x.t)] at hmaxmem
    obtain ⟨rl, hrl, hel⟩ := List.mem_map.mp hmaxmem
    have hmax : ∀ r ∈ r1 :: rest, r.t ≤ rl.t := by
      intro r hr
      obtain ⟨a, b⟩ := le_foldl_max r1.t (rest.map (·.t))
      have h2 : r.t ≤ maxT r1.t (rest.map (·.t)) := by
        rcases List.mem_cons.mp hr with rfl | hr'
        · exact a
        · exact b _ (List.mem_map.mpr ⟨r, hr', rfl⟩)
      omega
    simp only [aggregationInsol, hlo, hor, List.map_map, List.mem_map, Function.comp_def]
    rw [← hel]
    have hle : binOf m freq r0.t ≤ binOf m freq rl.t := binOf_mono hf (hmin rl hrl)
    constructor
    · rintro ⟨b, hb, rfl⟩
      obtain ⟨hb1, hb2⟩ := mem_intRange.mp hb
      have ha := (binOf_eq_iff (origin := m) (t := r0.t) hf).mp rfl
      have hz := (binOf_eq_iff (origin := m) (t := rl.t) hf).mp rfl
      have m1 : binOf m freq r0.t * freq ≤ b * freq := Int.mul_le_mul_of_nonneg_right hb1 hf.le
      have m2 : b * freq ≤ binOf m freq rl.t * freq :=
        Int.mul_le_mul_of_nonneg_right (by omega) hf.le
      exact ⟨⟨b, by ring⟩, by omega, rl, hrl, by omega⟩
    · rintro ⟨⟨b, hb⟩, h1, r, hr, h2⟩
      have hL : L = m + b * freq := by linarith [mul_comm freq b]
      subst hL
      refine ⟨b, mem_intRange.mpr ?_, rfl⟩
      have h3 := hmax r hr
      have q1 : binOf m freq r0.t ≤ b := by
        unfold binOf
        have := Int.ediv_lt_iff_lt_mul (a := r0.t - m) (b := b + 1) hf
        have e : (b + 1) * freq = b * freq + freq := by ring
        rw [e] at this
        omega
      have q2 : b ≤ binOf m freq rl.t := by
        unfold binOf
        have := Int.le_ediv_iff_mul_le (a := b) (b := rl.t - m) hf
        omega
      omega

/-- C110 (order). The periods are reported in chronological order, none of them twice. -/
theorem C110_chronological {rows : List InsolRow} {freq : Int} (hf : 0 < freq) :
    ((aggregationInsol rows freq).map Prod.fst).Pairwise (· < ·) := by
  cases rows with
  | nil => simp [aggregationInsol]
  | cons r rest =>
    simp only [aggregationInsol, List.map_map, Function.comp_def]
    rw [List.pairwise_map]
    refine (intRange_lt _ _).imp ?_
    intro a b hab
    have : a * freq < b * freq := Int.mul_lt_mul_of_pos_right hab hf
    omega

/-- A record that is not empty has an earliest sample. -/
theorem exists_earliest {rows : List InsolRow} (h : rows ≠ []) :
    ∃ r0 ∈ rows, ∀ r ∈ rows, r0.t ≤ r.t := by
  cases rows with
  | nil => exact absurd rfl h
  | cons r1 rest =>
    have hmem := minT_mem r1.t (rest.map (·.t))
    rw [← List.map_cons (f := fun x : InsolRow => x.t)] at hmem
    obtain ⟨r0, hr0, he⟩ := List.mem_map.mp hmem
    refine ⟨r0, hr0, fun r hr => ?_⟩
    obtain ⟨a, b⟩ := foldl_min_le r1.t (rest.map (·.t))
    have h2 : minT r1.t (rest.map (·.t)) ≤ r.t := by
      rcases List.mem_cons.mp hr with rfl | hr'
      · exact a
      · exact b _ (List.mem_map.mpr ⟨r, hr', rfl⟩)
    omega

theorem dayNs_pos : (0 : Int) < dayNs := by decide

/-- C110 (the clock). When the period divides a day (hours, quarters of an hour, days), the
periods reported are exactly the multiples of the period counted from midnight that end after some
sample and start no later than some sample: they do not depend on where the record begins. -/
theorem C110_clock {rows : List InsolRow} {freq L : Int} (hf : 0 < freq) (hd : freq ∣ dayNs) :
    L ∈ (aggregationInsol rows freq).map Prod.fst ↔
      freq ∣ L ∧ (∃ r ∈ rows, r.t < L + freq) ∧ ∃ r ∈ rows, L ≤ r.t := by
  by_cases hne : rows = []
  · subst hne; simp [aggregationInsol]
  · obtain ⟨r0, h0, hmin⟩ := exists_earliest hne
    have e1 := Int.emod_add_mul_ediv r0.t dayNs
    have e2 := Int.emod_nonneg r0.t (ne_of_gt dayNs_pos)
    have e3 := Int.emod_lt_of_pos r0.t dayNs_pos
    rw [C110_periods hf h0 hmin (Dvd.intro (r0.t / dayNs) rfl) (by omega) (by omega)]
    have hdm : freq ∣ dayNs * (r0.t / dayNs) := Dvd.dvd.mul_right hd _
    constructor
    · rintro ⟨a, b, c⟩
      refine ⟨?_, ⟨r0, h0, b⟩, c⟩
      have := Int.dvd_add a hdm
      simpa using this
    · rintro ⟨a, ⟨r, hr, b⟩, c⟩
      have := hmin r hr
      exact ⟨Int.dvd_sub a hdm, by omega, c⟩

/-- C110 (growing records). When the period divides a day, adding samples outside a period — before
it, after it, or on both sides — leaves what is reported for that period as it was. -/
theorem C110_stable {rows more : List InsolRow} {freq L : Int} {v : Flt} (hf : 0 < freq)
    (hd : freq ∣ dayNs) (hsub : rows ⊆ more)
    (hsame : Spec.inPeriod more L freq = Spec.inPeriod rows L freq)
    (h : (L, v) ∈ aggregationInsol rows freq) : (L, v) ∈ aggregationInsol more freq := by
  have hL : L ∈ (aggregationInsol rows freq).map Prod.fst := List.mem_map.mpr ⟨_, h, rfl⟩
  obtain ⟨a, ⟨r, hr, b⟩, ⟨s, hs, c⟩⟩ := (C110_clock hf hd).mp hL
  have hL' : L ∈ (aggregationInsol more freq).map Prod.fst :=
    (C110_clock hf hd).mpr ⟨a, ⟨r, hsub hr, b⟩, ⟨s, hsub hs, c⟩⟩
  obtain ⟨⟨L', w⟩, hw, hE⟩ := List.mem_map.mp hL'
  simp only at hE
  subst hE
  have e1 := mem_aggregationInsol hf h
  have e2 := mem_aggregationInsol hf hw
  rw [hsame] at e2
  rw [e1, ← e2]
  exact hw

/-- three samples, two on one day and one two days later -/
def exBins : List InsolRow :=
  [⟨3600 * 10^9, some 2, some 1⟩, ⟨7200 * 10^9, some 1, some 4⟩, ⟨2 * dayNs + 5, some 1, some 3⟩]

/-- Daily periods of the example: the day without a sample is reported too. -/
example : aggregationInsol exBins dayNs =
    [(0, .fin 2), (dayNs, .nan), (2 * dayNs, .fin 3)] := by decide +kernel

/-- The hypotheses of `C110_stable` are met by adding a sample on the day before. -/
example : (2 * dayNs, Flt.fin 3) ∈ aggregationInsol (⟨-5, some 1, some 1⟩ :: exBins) dayNs :=
  C110_stable (rows := exBins) (by decide) (by decide) (by simp)
    (by decide +kernel) (by decide +kernel)

example : (0 : Int) ∈ (aggregationInsol exBins dayNs).map Prod.fst :=
  (C110_periods (r0 := ⟨3600 * 10^9, some 2, some 1⟩) (m := 0) (by decide) (by simp [exBins])
    (by decide +kernel) (by decide) (by decide) (by decide)).mpr
    ⟨by decide, by decide, _, List.mem_cons_self, by decide⟩

/-- C110 (growing records, longer periods). When the period is longer than a day the claim fails:
adding an earlier day moves every period boundary. -/
theorem C110_stable_refuted :
    ∃ (rows more : List InsolRow) (freq L : Int) (v : Flt), 0 < freq ∧ rows ⊆ more ∧
      Spec.inPeriod more L freq = Spec.inPeriod rows L freq ∧
      (L, v) ∈ aggregationInsol rows freq ∧ (L, v) ∉ aggregationInsol more freq :=
  ⟨exBins, ⟨-5, some 1, some 1⟩ :: exBins, 2 * dayNs, 0, .fin 2, by decide, by simp,
    by decide +kernel, by decide +kernel, by decide +kernel⟩

end Verif
