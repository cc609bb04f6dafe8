import Verif.Model.AggregationAlign
import Verif.Lemmas.Frame
import Verif.Lemmas.ChainsSoiling
import Verif.Props.AggregationSteps

/-! C131: aggregation of energy and insolation on different times. -/

namespace Verif

open Chains

namespace Spec

/-- the rows of a series in the period that starts at `L` -/
def rowsIn (s : Series) (L freq : Int) : Series := s.filter fun r => decide (L ≤ r.1 ∧ r.1 < L + freq)

/-- the insolation of a period, missing values skipped -/
def insolationOf (insol : Series) (L freq : Int) : ℚ := ((rowsIn insol L freq).map fun r => r.2.getD 0).sum

/-- the energies of a period weighted with the insolation measured at the same time; samples without
partner or without value do not count -/
def weightedOf (energy insol : Series) (L freq : Int) : ℚ :=
  ((rowsIn insol L freq).map fun r => (r.2.getD 0) * (lookupK energy r.1).getD 0).sum

/-- a time at which either series has a row -/
def SampledAt (energy insol : Series) (t : Int) : Prop :=
  t ∈ energy.map Prod.fst ∨ t ∈ insol.map Prod.fst

end Spec

open Spec

theorem resampleSum_labels (s : Series) (freq : Int) :
    (resampleSum s freq).map Prod.fst =
      (aggregationInsol (s.map fun r => ⟨r.1, r.2, none⟩) freq).map Prod.fst := by
  cases s with
  | nil => rfl
  | cons r rest => simp [resampleSum, aggregationInsol, Function.comp_def]

theorem resampleSum_clock {s : Series} {freq L : Int} (hf : 0 < freq) (hd : freq ∣ dayNs) :
    L ∈ (resampleSum s freq).map Prod.fst ↔
      freq ∣ L ∧ (∃ t ∈ s.map Prod.fst, t < L + freq) ∧ ∃ t ∈ s.map Prod.fst, L ≤ t := by
  rw [resampleSum_labels, C110_clock hf hd]
  simp

theorem resampleSum_value {s : Series} {freq L : Int} {v : Cell} (hf : 0 < freq)
    (h : (L, v) ∈ resampleSum s freq) : v = some ((rowsIn s L freq).map fun r => r.2.getD 0).sum := by
  cases s with
  | nil => simp [resampleSum] at h
  | cons r rest =>
    simp only [resampleSum, List.mem_map] at h
    obtain ⟨b, _, hb⟩ := h
    simp only [Prod.mk.injEq] at hb
    obtain ⟨hL, hv⟩ := hb
    have : (r :: rest).filter (fun x =>
        decide (binOf (startDay (minT r.1 (rest.map Prod.fst))) freq x.1 = b)) = rowsIn (r :: rest) L freq := by
      unfold rowsIn
      apply List.filter_congr
      intro x _
      rw [← hL]
      exact decide_eq_decide.mpr (binOf_eq_iff hf)
    rw [← hv, this, skipnaSum_getD, List.map_map]
    rfl

theorem lookupK_mem_value {K : List (Int × Cell)} {L : Int} (h : L ∈ K.map Prod.fst)
    {x : Cell} (hv : ∀ v, (L, v) ∈ K → v = x) : lookupK K L = x := by
  induction K with
  | nil => simp at h
  | cons r K ih =>
    obtain ⟨u, y⟩ := r
    unfold lookupK
    by_cases hu : u = L
    · subst hu; simp only [if_true]; exact hv y (by simp)
    · simp only [hu, if_false]
      refine ih ?_ fun v hv' => hv v (by simp [hv'])
      simp only [List.map_cons, List.mem_cons] at h
      exact h.resolve_left (fun e => hu e.symm)

theorem lookupK_not_mem {K : List (Int × Cell)} {L : Int} (h : L ∉ K.map Prod.fst) : lookupK K L = none := by
  induction K with
  | nil => rfl
  | cons r K ih =>
    obtain ⟨u, y⟩ := r
    simp only [List.map_cons, List.mem_cons, not_or] at h
    unfold lookupK
    rw [if_neg (fun e => h.1 e.symm)]
    exact ih h.2

theorem getD_mul (a b : Cell) : (cellOp (· * ·) a b).getD 0 = a.getD 0 * b.getD 0 := by
  cases a <;> cases b <;> simp [cellOp]

theorem sum_ite_one {ls : List Int} (hn : ls.Nodup) {t : Int} (h : t ∈ ls) (g : ℚ) :
    (ls.map fun l => if t = l then g else 0).sum = g :=
  sum_one_label hn h (fun l _ => ⟨fun e => e.symm, fun e => e.symm⟩) g

theorem sum_lookup {ls : List Int} (hn : ls.Nodup) {insol : Series} (hni : (insol.map Prod.fst).Nodup)
    (hsub : ∀ t ∈ insol.map Prod.fst, t ∈ ls) (g : Int → ℚ) (hzero : ∀ t ∈ ls, t ∉ insol.map Prod.fst → g t = 0) :
    (ls.map g).sum = (insol.map fun r => g r.1).sum := by
  have e : ls.map g = ls.map fun t => ((insol.map Prod.fst).map fun u => if u = t then g u else 0).sum := by
    apply List.map_congr_left
    intro t ht
    by_cases h : t ∈ insol.map Prod.fst
    · have := sum_one_label hni h (P := fun u => u = t) (fun l _ => Iff.rfl) (g t)
      rw [← this]
      congr 1
      apply List.map_congr_left
      intro u _
      by_cases hu : u = t <;> simp [hu]
    · rw [hzero t ht h]
      symm
      apply List.sum_eq_zero
      intro x hx
      obtain ⟨u, hu, rfl⟩ := List.mem_map.mp hx
      have : u ≠ t := fun e => h (e ▸ hu)
      simp [this]
  rw [e]
  clear e hzero hni
  induction insol with
  | nil => simp
  | cons r l ih =>
    have hi := ih fun t ht => hsub t (by simp only [List.map_cons, List.mem_cons]; exact Or.inr ht)
    simp only [List.map_cons, List.sum_cons]
    rw [sum_add_map, hi]
    rw [sum_ite_one hn (hsub r.1 (by simp))]

/-- **C131 (any times, partial).** For periods that divide a day (others: `C131_longer_periods_refuted`), and energy and insolation at whatever times
each of them has: every period from the first to the last sample is reported once, and its value
is the sum of the energies weighted by the insolation of the same time, divided by the insolation of
the period. Energies without insolation count for nothing; insolation without energy counts in the
divisor. -/
theorem C131_paired_partial {energy insol : Series} {freq L : Int} {v : Flt} (hf : 0 < freq) (hd : freq ∣ dayNs)
    (hn : (insol.map Prod.fst).Nodup) :
    (L, v) ∈ aggregationInsolOn energy insol freq ↔
      freq ∣ L ∧ (∃ t, SampledAt energy insol t ∧ t < L + freq) ∧ (∃ t, SampledAt energy insol t ∧ L ≤ t) ∧
      v = Flt.ofDiv (weightedOf energy insol L freq) (insolationOf insol L freq) := by
  set P := alignedProduct energy insol with hP
  have hPfst : P.map Prod.fst = sortedUnion (insol.map Prod.fst ++ energy.map Prod.fst) := by
    simp [hP, alignedProduct, Function.comp_def]
  have hmemP : ∀ t, t ∈ P.map Prod.fst ↔ SampledAt energy insol t := by
    intro t
    rw [hPfst, mem_sortedUnion, List.mem_append]
    exact or_comm
  have hlabP : ∀ L, L ∈ (resampleSum P freq).map Prod.fst ↔ freq ∣ L ∧
      (∃ t, SampledAt energy insol t ∧ t < L + freq) ∧ ∃ t, SampledAt energy insol t ∧ L ≤ t := by
    intro L
    rw [resampleSum_clock hf hd]
    simp only [hmemP]
  have hsub : ∀ L, L ∈ (resampleSum insol freq).map Prod.fst → L ∈ (resampleSum P freq).map Prod.fst := by
    intro L hL
    rw [hlabP]
    obtain ⟨a, ⟨t, ht, b⟩, ⟨u, hu, c⟩⟩ := (resampleSum_clock hf hd).mp hL
    exact ⟨a, ⟨t, Or.inr ht, b⟩, ⟨u, Or.inr hu, c⟩⟩
  have hlab : ∀ L, L ∈ sortedUnion ((resampleSum P freq).map Prod.fst ++ (resampleSum insol freq).map Prod.fst) ↔
      L ∈ (resampleSum P freq).map Prod.fst := by
    intro L
    rw [mem_sortedUnion, List.mem_append]
    exact ⟨fun h => h.elim id (hsub L), Or.inl⟩
  -- the sum of the products of a period
  have hnum : ((rowsIn P L freq).map fun r => r.2.getD 0).sum = weightedOf energy insol L freq := by
    have e1 : (rowsIn P L freq).map (fun r => r.2.getD 0) =
        ((sortedUnion (insol.map Prod.fst ++ energy.map Prod.fst)).filter
          fun t => decide (L ≤ t ∧ t < L + freq)).map
          fun t => (lookupK insol t).getD 0 * (lookupK energy t).getD 0 := by
      unfold rowsIn
      rw [hP]
      unfold alignedProduct
      rw [List.filter_map, List.map_map]
      apply List.map_congr_left
      intro t _
      exact getD_mul _ _
    rw [e1, sum_filter_ite]
    have hnU : (sortedUnion (insol.map Prod.fst ++ energy.map Prod.fst)).Nodup :=
      (sortedUnion_sorted _).imp fun h => ne_of_lt h
    rw [sum_lookup hnU hn (fun t ht => mem_sortedUnion.mpr (List.mem_append.mpr (Or.inl ht)))]
    · unfold weightedOf rowsIn
      rw [sum_filter_ite]
      congr 1
      apply List.map_congr_left
      intro r hr
      have : lookupK insol r.1 = r.2 := by
        apply lookupK_mem_value (List.mem_map.mpr ⟨r, hr, rfl⟩)
        intro v hv
        have := List.inj_on_of_nodup_map hn hv hr rfl
        exact congrArg Prod.snd this
      rw [this]
    · intro t _ ht
      rw [lookupK_not_mem ht]
      simp
  have hval : L ∈ (resampleSum P freq).map Prod.fst →
      quotientCell (lookupK (resampleSum P freq) L) (lookupK (resampleSum insol freq) L) =
      Flt.ofDiv (weightedOf energy insol L freq) (insolationOf insol L freq) := by
    intro hL
    have h1 : lookupK (resampleSum P freq) L = some (weightedOf energy insol L freq) := by
      apply lookupK_mem_value hL
      intro v hv
      rw [resampleSum_value hf hv, hnum]
    rw [h1]
    by_cases hI : L ∈ (resampleSum insol freq).map Prod.fst
    · have h2 : lookupK (resampleSum insol freq) L = some (insolationOf insol L freq) := by
        apply lookupK_mem_value hI
        intro v hv
        rw [resampleSum_value hf hv]; rfl
      rw [h2]; rfl
    · rw [lookupK_not_mem hI]
      have hempty : rowsIn insol L freq = [] := by
        unfold rowsIn
        rw [List.filter_eq_nil_iff]
        intro r hr
        simp only [decide_eq_true_eq]
        intro hh
        apply hI
        rw [resampleSum_clock hf hd]
        have hrt : r.1 ∈ insol.map Prod.fst := List.mem_map.mpr ⟨r, hr, rfl⟩
        exact ⟨((hlabP L).mp hL).1, ⟨r.1, hrt, hh.2⟩, ⟨r.1, hrt, hh.1⟩⟩
      simp [weightedOf, insolationOf, hempty, Flt.ofDiv, quotientCell]
  unfold aggregationInsolOn
  simp only [List.mem_map, Prod.mk.injEq]
  constructor
  · rintro ⟨L', hL', rfl, rfl⟩
    have hL := (hlab L').mp hL'
    obtain ⟨a, b, c⟩ := (hlabP L').mp hL
    exact ⟨a, b, c, hval hL⟩
  · rintro ⟨a, b, c, rfl⟩
    have hL := (hlabP L).mpr ⟨a, b, c⟩
    exact ⟨L, (hlab L).mpr hL, rfl, hval hL⟩

theorem sortedUnion_self {l : List Int} (h : StrictSorted l) : sortedUnion (l ++ l) = l := by
  have s1 := sortedUnion_sorted (l ++ l)
  have hp : (sortedUnion (l ++ l)).Perm l :=
    (List.perm_ext_iff_of_nodup (s1.imp fun h => ne_of_lt h) (h.imp fun h => ne_of_lt h)).mpr
      (fun t => by rw [mem_sortedUnion]; simp)
  exact hp.eq_of_pairwise (fun a b _ _ h h' => absurd h (lt_asymm h')) s1 h

theorem zip_filter_num (freq L : Int) (energy insol : Series) (he : energy.map Prod.fst = insol.map Prod.fst)
    (hn : (insol.map Prod.fst).Nodup) :
    ((inPeriod (insolRows energy insol) L freq).map rowNum).sum = weightedOf energy insol L freq ∧
    ((inPeriod (insolRows energy insol) L freq).map rowDen).sum = insolationOf insol L freq := by
  have hrow : insolRows energy insol = insol.map fun r => ⟨r.1, r.2, lookupK energy r.1⟩ := by
    have hne : (energy.map Prod.fst).Nodup := he ▸ hn
    have e1 : insolRows energy insol = (energy.map Prod.fst).map fun t => ⟨t, lookupK insol t, lookupK energy t⟩ := by
      unfold insolRows
      rw [List.map_map]
      apply List.map_congr_left
      intro r hr
      simp only [Function.comp_apply]
      congr 1
      symm
      apply lookupK_mem_value (List.mem_map.mpr ⟨r, hr, rfl⟩)
      intro v hv
      exact congrArg Prod.snd (List.inj_on_of_nodup_map hne hv hr rfl)
    rw [e1, he, List.map_map]
    apply List.map_congr_left
    intro r hr
    simp only [Function.comp_apply]
    congr 1
    apply lookupK_mem_value (List.mem_map.mpr ⟨r, hr, rfl⟩)
    intro v hv
    exact congrArg Prod.snd (List.inj_on_of_nodup_map hn hv hr rfl)
  rw [hrow]
  unfold inPeriod weightedOf insolationOf rowsIn
  rw [List.filter_map, List.map_map, List.map_map]
  refine ⟨?_, rfl⟩
  congr 1
  apply List.map_congr_left
  intro r _
  exact getD_mul _ _

/-- **C131 (same times).** For energy and insolation with the same times this is the aggregation of the
rows, for every frequency: the theorems C01, C02, C03, C110 and C128 apply. -/
theorem C131_same_times {energy insol : Series} {freq : Int} (hf : 0 < freq)
    (he : energy.map Prod.fst = insol.map Prod.fst) (hs : StrictSorted (insol.map Prod.fst)) :
    aggregationInsolOn energy insol freq = aggregationInsol (insolRows energy insol) freq := by
  have hn : (insol.map Prod.fst).Nodup := hs.imp fun h => ne_of_lt h
  have hPfst : (alignedProduct energy insol).map Prod.fst = insol.map Prod.fst := by
    simp only [alignedProduct, List.map_map, Function.comp_def, List.map_id']
    rw [he, sortedUnion_self hs]
  have hlabel : ∀ s t : Series, s.map Prod.fst = t.map Prod.fst →
      (resampleSum s freq).map Prod.fst = (resampleSum t freq).map Prod.fst := by
    intro s t h
    cases s with
    | nil => cases t with
      | nil => rfl
      | cons r t => simp at h
    | cons r s => cases t with
      | nil => simp at h
      | cons q t =>
        simp only [List.map_cons, List.cons.injEq] at h
        simp only [resampleSum, List.map_map, Function.comp_def, h.1, h.2]
  have hrows : (aggregationInsol (insolRows energy insol) freq).map Prod.fst =
      (resampleSum insol freq).map Prod.fst := by
    rw [← hlabel energy insol he, resampleSum_labels]
    cases energy with
    | nil => rfl
    | cons r e => simp [insolRows, aggregationInsol, Function.comp_def]
  have hsorted : StrictSorted ((resampleSum insol freq).map Prod.fst) := by
    rw [resampleSum_labels]
    exact C110_chronological hf
  rw [agg_eq_map hf, hrows]
  unfold aggregationInsolOn
  simp only [hlabel _ _ hPfst, sortedUnion_self hsorted]
  apply List.map_congr_left
  intro L hL
  have hnum : ((rowsIn (alignedProduct energy insol) L freq).map fun r => r.2.getD 0).sum =
      weightedOf energy insol L freq := by
    unfold weightedOf rowsIn
    have hP : alignedProduct energy insol =
        insol.map fun r => (r.1, cellOp (· * ·) r.2 (lookupK energy r.1)) := by
      unfold alignedProduct
      rw [he, sortedUnion_self hs, List.map_map]
      apply List.map_congr_left
      intro r hr
      simp only [Function.comp_apply]
      congr 2
      apply lookupK_mem_value (List.mem_map.mpr ⟨r, hr, rfl⟩)
      intro v hv
      exact congrArg Prod.snd (List.inj_on_of_nodup_map hn hv hr rfl)
    rw [hP, List.filter_map, List.map_map]
    congr 1
    apply List.map_congr_left
    intro r _
    exact getD_mul _ _
  have h1 : lookupK (resampleSum (alignedProduct energy insol) freq) L = some (weightedOf energy insol L freq) := by
    apply lookupK_mem_value (by rw [hlabel _ _ hPfst]; exact hL)
    intro v hv
    rw [resampleSum_value hf hv, hnum]
  have h2 : lookupK (resampleSum insol freq) L = some (insolationOf insol L freq) := by
    apply lookupK_mem_value hL
    intro v hv
    rw [resampleSum_value hf hv]; rfl
  obtain ⟨a, b⟩ := zip_filter_num freq L energy insol he hn
  rw [h1, h2, a, b]
  rfl

example : aggregationInsolOn [(5, some 2), (7, some 3)] [(5, some 1), (7, some 3)] dayNs = [(0, .fin (11/4))] ∧
    aggregationInsol (insolRows [(5, some 2), (7, some 3)] [(5, some 1), (7, some 3)]) dayNs = [(0, .fin (11/4))] := by
  decide +kernel

/-- energy at noon of two days and an hour later on the second; insolation at noon of the first day, at midnight
before and at one o'clock of the third day -/
def exApart : Series × Series :=
  ([(43200 * 10^9, some 2), (dayNs + 43200 * 10^9, some 3), (dayNs + 46800 * 10^9, none)],
   [(0, some 1), (43200 * 10^9, some 3), (2 * dayNs + 3600 * 10^9, some 5)])

example : (exApart.2.map Prod.fst).Nodup ∧ aggregationInsolOn exApart.1 exApart.2 dayNs =
    [(0, .fin (3/2)), (dayNs, .nan), (2 * dayNs, .fin 0)] := by decide +kernel

/-- **C131 (longer periods, refuted).** When the period is longer than a day and the energy starts a day
before the insolation, the two sums count their periods from different midnights: no period of
the one is a period of the other, and nothing is reported although every period holds pairs of samples. -/
theorem C131_longer_periods_refuted :
    ∃ (energy insol : Series) (freq : Int), 0 < freq ∧ (insol.map Prod.fst).Nodup ∧
      (∀ r ∈ insol, ∃ w e, r.2 = some w ∧ 0 < w ∧ (r.1, some e) ∈ energy) ∧
      (∃ L v, (L, v) ∈ aggregationInsolOn energy insol freq) ∧
      ∀ L v, (L, v) ∈ aggregationInsolOn energy insol freq → v = .nan := by
  refine ⟨[(0, some 1), (dayNs, some 1), (2 * dayNs, some 1), (3 * dayNs, some 1)],
    [(dayNs, some 1), (2 * dayNs, some 1), (3 * dayNs, some 1)], 2 * dayNs, by decide, by decide +kernel, ?_, ?_, ?_⟩
  · intro r hr
    simp only [List.mem_cons, List.not_mem_nil, or_false] at hr
    rcases hr with rfl | rfl | rfl <;> exact ⟨1, 1, rfl, by norm_num, by simp⟩
  · exact ⟨0, .nan, by decide +kernel⟩
  · have h : aggregationInsolOn [(0, some 1), (dayNs, some 1), (2 * dayNs, some 1), (3 * dayNs, some 1)]
        [(dayNs, some 1), (2 * dayNs, some 1), (3 * dayNs, some 1)] (2 * dayNs) =
        [(0, .nan), (dayNs, .nan), (2 * dayNs, .nan), (3 * dayNs, .nan)] := by decide +kernel
    intro L v hm
    rw [h] at hm
    simp only [List.mem_cons, Prod.mk.injEq, List.not_mem_nil, or_false] at hm
    rcases hm with ⟨_, h⟩ | ⟨_, h⟩ | ⟨_, h⟩ | ⟨_, h⟩ <;> exact h

end Verif
