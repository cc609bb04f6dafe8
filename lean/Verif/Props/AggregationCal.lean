import Verif.Lemmas.CalendarMonth
import Verif.Props.AggregationAlign

/-! C132: insolation-weighted aggregation over months, years and weeks. -/

namespace Verif

open Chains

namespace Spec

/-- year and month of a timestamp -/
def yearMonth (t : Int) : Int × Int := ((civil (t / dayNs)).year, (civil (t / dayNs)).month)

/-- a timestamp belongs to the calendar period with label `L`: the same month of the same year, the same year, or the seven
days that end with the day of the label -/
def InCal (c : CalFreq) (L t : Int) : Prop :=
  match c with
  | .monthStart | .monthEnd => yearMonth t = yearMonth L
  | .yearStart | .yearEnd => (yearMonth t).1 = (yearMonth L).1
  | .week => L - 6 * dayNs ≤ t ∧ t < L + dayNs

instance (c : CalFreq) (L t : Int) : Decidable (InCal c L t) := by
  unfold InCal; cases c <;> infer_instance

/-- labels: midnight of the first day of a month, of the last day of a month (the day before a first day), of 1 January, of 31
December, of a Sunday (4 January 1970 was one) -/
def IsLabel (c : CalFreq) (L : Int) : Prop :=
  L % dayNs = 0 ∧
  match c with
  | .monthStart => (civil (L / dayNs)).day = 1
  | .monthEnd => (civil (L / dayNs + 1)).day = 1
  | .yearStart => (civil (L / dayNs)).month = 1 ∧ (civil (L / dayNs)).day = 1
  | .yearEnd => (civil (L / dayNs + 1)).month = 1 ∧ (civil (L / dayNs + 1)).day = 1
  | .week => (L / dayNs - dayNumber ⟨1970, 1, 4⟩) % 7 = 0

/-- the insolation of a calendar period, missing values skipped -/
def insolationCal (insol : Series) (c : CalFreq) (L : Int) : ℚ :=
  ((insol.filter fun r => decide (InCal c L r.1)).map fun r => r.2.getD 0).sum

/-- the energies of a calendar period weighted with the insolation measured at the same time -/
def weightedCal (energy insol : Series) (c : CalFreq) (L : Int) : ℚ :=
  ((insol.filter fun r => decide (InCal c L r.1)).map fun r => r.2.getD 0 * (lookupK energy r.1).getD 0).sum

end Spec

open Spec

/-! ### Labels and periods in terms of the calendar -/

theorem monthNo_eq_iff (n m : Int) :
    monthNo n = monthNo m ↔ (civil n).year = (civil m).year ∧ (civil n).month = (civil m).month := by
  have hr : ∀ n : Int, 1 ≤ (civil n).month ∧ (civil n).month ≤ 12 := by
    intro n
    obtain ⟨Y, mp, d, h0, h1, -, -, hc, -⟩ := civil_march n
    rw [hc]
    by_cases h : mp < 10 <;> simp only [h, if_true, if_false] <;> omega
  have h1 := hr n
  have h2 := hr m
  unfold monthNo
  constructor
  · intro h; constructor <;> omega
  · rintro ⟨h, g⟩; rw [h, g]

theorem civil_jan1 (y : Int) : civil (dayNumber ⟨y, 1, 1⟩) = ⟨y, 1, 1⟩ := by
  have h := civil_monthFirst (12 * y)
  unfold monthFirst at h
  rw [show 12 * y / 12 = y by omega, show 12 * y % 12 = 0 by omega] at h
  exact h

theorem first_of_year {n : Int} (h : (civil n).month = 1) (h1 : (civil n).day = 1) :
    n = dayNumber ⟨(civil n).year, 1, 1⟩ := by
  conv_lhs => rw [← dayNumber_civil n]
  congr 1
  generalize civil n = x at *
  cases x
  simp_all

theorem isLabel_iff (c : CalFreq) (L : Int) : IsLabel c L ↔ ∃ k, L = periodLabel c k := by
  have hL : ∀ n : Int, L % dayNs = 0 → L / dayNs = n → L = n * dayNs := by
    intro n h1 h2
    have := Int.mul_ediv_add_emod L dayNs
    rw [h1, h2] at this
    linarith
  constructor
  · rintro ⟨h0, h⟩
    cases c with
    | monthStart => exact ⟨monthNo (L / dayNs), hL _ h0 (first_of_month h)⟩
    | monthEnd =>
      refine ⟨monthNo (L / dayNs + 1) - 1, hL _ h0 ?_⟩
      have := first_of_month h
      simp only [periodFirstDay, sub_add_cancel]
      exact eq_sub_of_add_eq this
    | yearStart => exact ⟨(civil (L / dayNs)).year, hL _ h0 (first_of_year h.1 h.2)⟩
    | yearEnd =>
      refine ⟨(civil (L / dayNs + 1)).year - 1, hL _ h0 ?_⟩
      have := first_of_year h.1 h.2
      simp only [periodFirstDay, sub_add_cancel]
      exact eq_sub_of_add_eq this
    | week =>
      have e : dayNumber ⟨1970, 1, 4⟩ = 3 := by decide
      simp only [e] at h
      refine ⟨(L / dayNs - 3) / 7, hL _ h0 ?_⟩
      simp only [periodFirstDay]
      omega
  · rintro ⟨k, rfl⟩
    obtain ⟨h1, h2⟩ := periodLabel_div c k
    refine ⟨h2, ?_⟩
    cases c with
    | monthStart =>
      have : periodLabel .monthStart k / dayNs = monthFirst k := h1
      simp only [this, civil_monthFirst]
    | monthEnd =>
      have : periodLabel .monthEnd k / dayNs + 1 = monthFirst (k + 1) := by
        rw [h1]; simp only [reduceCtorEq, or_self, if_false, sub_add_cancel]; rfl
      simp only [this, civil_monthFirst]
    | yearStart =>
      have : periodLabel .yearStart k / dayNs = dayNumber ⟨k, 1, 1⟩ := h1
      simp only [this, civil_jan1, and_self]
    | yearEnd =>
      have : periodLabel .yearEnd k / dayNs + 1 = dayNumber ⟨k + 1, 1, 1⟩ := by
        rw [h1]; simp only [reduceCtorEq, or_self, if_false, sub_add_cancel]; rfl
      simp only [this, civil_jan1, and_self]
    | week =>
      have e : dayNumber ⟨1970, 1, 4⟩ = 3 := by decide
      have : periodLabel .week k / dayNs = 7 * (k + 1) - 3 - 1 := by
        rw [h1]; simp only [reduceCtorEq, or_self, if_false]; rfl
      simp only [this, e]
      omega

theorem inCal_iff (c : CalFreq) (k t : Int) : InCal c (periodLabel c k) t ↔ periodNo c t = k := by
  have hl := periodNo_label c k
  cases c with
  | monthStart =>
    rw [← hl]
    simp only [InCal, yearMonth, periodNo, monthNo_eq_iff, Prod.mk.injEq]
    rw [show monthNo (periodLabel .monthStart k / dayNs) = k from hl]
  | monthEnd =>
    rw [← hl]
    simp only [InCal, yearMonth, periodNo, monthNo_eq_iff, Prod.mk.injEq]
    rw [show monthNo (periodLabel .monthEnd k / dayNs) = k from hl]
  | yearStart =>
    simp only [InCal, yearMonth, periodNo]
    rw [show (civil (periodLabel .yearStart k / dayNs)).year = k from hl]
  | yearEnd =>
    simp only [InCal, yearMonth, periodNo]
    rw [show (civil (periodLabel .yearEnd k / dayNs)).year = k from hl]
  | week =>
    have hp := dayNs_pos
    simp only [InCal, periodNo, periodLabel, periodFirstDay]
    have h1 := Int.mul_ediv_add_emod t dayNs
    have h2 := Int.emod_nonneg t (ne_of_gt hp)
    have h3 := Int.emod_lt_of_pos t hp
    unfold dayNs at *
    omega

theorem not_after_iff (c : CalFreq) (k t : Int) :
    periodNo c t ≤ k ↔ InCal c (periodLabel c k) t ∨ t < periodLabel c k := by
  rw [inCal_iff]
  constructor
  · intro h
    rcases lt_or_eq_of_le h with h | h
    · right
      by_contra hc
      have := periodNo_mono c (not_lt.mp hc)
      rw [periodNo_label] at this
      omega
    · exact .inl h
  · rintro (h | h)
    · omega
    · have := periodNo_mono c (le_of_lt h)
      rwa [periodNo_label] at this

theorem not_before_iff (c : CalFreq) (k t : Int) :
    k ≤ periodNo c t ↔ InCal c (periodLabel c k) t ∨ periodLabel c k < t := by
  rw [inCal_iff]
  constructor
  · intro h
    rcases lt_or_eq_of_le h with h | h
    · right
      by_contra hc
      have := periodNo_mono c (not_lt.mp hc)
      rw [periodNo_label] at this
      omega
    · exact .inl h.symm
  · rintro (h | h)
    · omega
    · have := periodNo_mono c (le_of_lt h)
      rwa [periodNo_label] at this

/-! ### Rows of the resampled sums -/

theorem resampleCal_label {s : Series} {c : CalFreq} {L : Int} :
    L ∈ (resampleSumCal s c).map Prod.fst ↔ ∃ k, L = periodLabel c k ∧
      (∃ t ∈ s.map Prod.fst, periodNo c t ≤ k) ∧ ∃ t ∈ s.map Prod.fst, k ≤ periodNo c t := by
  cases s with
  | nil => simp [resampleSumCal]
  | cons r rest =>
    have hmin := minT_mem r.1 (rest.map Prod.fst)
    have hmax := maxT_mem r.1 (rest.map Prod.fst)
    have hle := minT_le r.1 (rest.map Prod.fst)
    have hge : ∀ t ∈ r.1 :: rest.map Prod.fst, t ≤ maxT r.1 (rest.map Prod.fst) := by
      intro t ht
      exact le_maxT r.1 (rest.map Prod.fst) t ht
    simp only [resampleSumCal, List.map_map, List.mem_map, Function.comp_apply, mem_intRange]
    constructor
    · rintro ⟨b, ⟨h1, h2⟩, rfl⟩
      refine ⟨b, rfl, ⟨_, List.mem_map.mp hmin, h1⟩, ⟨_, List.mem_map.mp hmax, by omega⟩⟩
    · rintro ⟨k, rfl, ⟨t, ht, h1⟩, ⟨u, hu, h2⟩⟩
      have g1 := periodNo_mono c (hle t (List.mem_map.mpr ht))
      have g2 := periodNo_mono c (hge u (List.mem_map.mpr hu))
      exact ⟨k, by omega, rfl⟩

theorem label_inj {c : CalFreq} {j k : Int} (h : periodLabel c j = periodLabel c k) : j = k := by
  have := congrArg (periodNo c) h
  rwa [periodNo_label, periodNo_label] at this

theorem resampleCal_value {s : Series} {c : CalFreq} {k : Int} {v : Cell} (h : (periodLabel c k, v) ∈ resampleSumCal s c) :
    v = some ((s.filter fun r => decide (periodNo c r.1 = k)).map fun r => r.2.getD 0).sum := by
  cases s with
  | nil => simp [resampleSumCal] at h
  | cons r rest =>
    simp only [resampleSumCal, List.mem_map, Prod.mk.injEq] at h
    obtain ⟨b, -, hL, hv⟩ := h
    rw [label_inj hL] at hv
    rw [← hv, skipnaSum_getD, List.map_map]
    rfl

/-- **C132 (periods and values).** With months, years or weeks as frequency, and energy and insolation at whatever times each of
them has: every calendar period from the first to the last sample is reported once, under midnight of its first or last
day; its value is the sum of the energies weighted by the insolation of the same time, divided by the insolation of the period. -/
theorem C132_periods {energy insol : Series} {c : CalFreq} {L : Int} {v : Flt} (hn : (insol.map Prod.fst).Nodup) :
    (L, v) ∈ aggregationInsolCal energy insol c ↔
      IsLabel c L ∧ (∃ t, SampledAt energy insol t ∧ (InCal c L t ∨ t < L)) ∧
      (∃ t, SampledAt energy insol t ∧ (InCal c L t ∨ L < t)) ∧
      v = Flt.ofDiv (weightedCal energy insol c L) (insolationCal insol c L) := by
  set P := alignedProduct energy insol with hP
  have hPfst : P.map Prod.fst = sortedUnion (insol.map Prod.fst ++ energy.map Prod.fst) := by
    simp [hP, alignedProduct, Function.comp_def]
  have hmemP : ∀ t, t ∈ P.map Prod.fst ↔ SampledAt energy insol t := by
    intro t
    rw [hPfst, mem_sortedUnion, List.mem_append]
    exact or_comm
  have hlabP : ∀ k, periodLabel c k ∈ (resampleSumCal P c).map Prod.fst ↔
      (∃ t, SampledAt energy insol t ∧ periodNo c t ≤ k) ∧ ∃ t, SampledAt energy insol t ∧ k ≤ periodNo c t := by
    intro k
    rw [resampleCal_label]
    simp only [hmemP]
    constructor
    · rintro ⟨j, e, h⟩; rw [label_inj e]; exact h
    · intro h; exact ⟨k, rfl, h⟩
  have hsub : ∀ L, L ∈ (resampleSumCal insol c).map Prod.fst → L ∈ (resampleSumCal P c).map Prod.fst := by
    intro L hL
    obtain ⟨k, rfl, ⟨t, ht, b⟩, ⟨u, hu, d⟩⟩ := resampleCal_label.mp hL
    exact (hlabP k).mpr ⟨⟨t, Or.inr ht, b⟩, ⟨u, Or.inr hu, d⟩⟩
  have hlab : ∀ L, L ∈ sortedUnion ((resampleSumCal P c).map Prod.fst ++ (resampleSumCal insol c).map Prod.fst) ↔
      L ∈ (resampleSumCal P c).map Prod.fst := by
    intro L
    rw [mem_sortedUnion, List.mem_append]
    exact ⟨fun h => h.elim id (hsub L), Or.inl⟩
  have hfil : ∀ (s : Series) k, (s.filter fun r => decide (InCal c (periodLabel c k) r.1)) =
      s.filter fun r => decide (periodNo c r.1 = k) := by
    intro s k
    apply List.filter_congr
    intro r _
    exact decide_eq_decide.mpr (inCal_iff c k r.1)
  have hnum : ∀ k, ((P.filter fun r => decide (periodNo c r.1 = k)).map fun r => r.2.getD 0).sum =
      weightedCal energy insol c (periodLabel c k) := by
    intro k
    have e1 : (P.filter fun r => decide (periodNo c r.1 = k)).map (fun r => r.2.getD 0) =
        ((sortedUnion (insol.map Prod.fst ++ energy.map Prod.fst)).filter
          fun t => decide (periodNo c t = k)).map
          fun t => (lookupK insol t).getD 0 * (lookupK energy t).getD 0 := by
      rw [hP]
      unfold alignedProduct
      rw [List.filter_map, List.map_map]
      apply List.map_congr_left
      intro t _
      exact getD_mul _ _
    rw [e1, sum_filter_ite]
    have hnU : (sortedUnion (insol.map Prod.fst ++ energy.map Prod.fst)).Nodup :=
      (sortedUnion_sorted _).imp fun h => ne_of_lt h
    rw [sum_lookup hnU hn (fun t ht => mem_sortedUnion.mpr (List.mem_append.mpr (Or.inl ht)))]
    · unfold weightedCal
      rw [hfil, sum_filter_ite]
      congr 1
      apply List.map_congr_left
      intro r hr
      have : lookupK insol r.1 = r.2 := by
        apply lookupK_mem_value (List.mem_map.mpr ⟨r, hr, rfl⟩)
        intro v hv
        have := List.inj_on_of_nodup_map hn hv hr rfl
        exact congrArg Prod.snd this
      rw [this]
    · intro t _ ht
      rw [lookupK_not_mem ht]
      simp
  have hval : ∀ k, periodLabel c k ∈ (resampleSumCal P c).map Prod.fst →
      quotientCell (lookupK (resampleSumCal P c) (periodLabel c k)) (lookupK (resampleSumCal insol c) (periodLabel c k)) =
      Flt.ofDiv (weightedCal energy insol c (periodLabel c k)) (insolationCal insol c (periodLabel c k)) := by
    intro k hL
    have h1 : lookupK (resampleSumCal P c) (periodLabel c k) = some (weightedCal energy insol c (periodLabel c k)) := by
      apply lookupK_mem_value hL
      intro v hv
      rw [resampleCal_value hv, hnum]
    rw [h1]
    by_cases hI : periodLabel c k ∈ (resampleSumCal insol c).map Prod.fst
    · have h2 : lookupK (resampleSumCal insol c) (periodLabel c k) = some (insolationCal insol c (periodLabel c k)) := by
        apply lookupK_mem_value hI
        intro v hv
        rw [resampleCal_value hv]
        unfold insolationCal
        rw [hfil]
      rw [h2]; rfl
    · rw [lookupK_not_mem hI]
      have hempty : (insol.filter fun r => decide (InCal c (periodLabel c k) r.1)) = [] := by
        rw [hfil, List.filter_eq_nil_iff]
        intro r hr
        simp only [decide_eq_true_eq]
        intro hh
        apply hI
        have hrt : r.1 ∈ insol.map Prod.fst := List.mem_map.mpr ⟨r, hr, rfl⟩
        exact resampleCal_label.mpr ⟨k, rfl, ⟨r.1, hrt, by omega⟩, ⟨r.1, hrt, by omega⟩⟩
      simp [weightedCal, insolationCal, hempty, Flt.ofDiv, quotientCell]
  unfold aggregationInsolCal
  simp only [List.mem_map, Prod.mk.injEq]
  constructor
  · rintro ⟨L', hL', rfl, rfl⟩
    have hL := (hlab L').mp hL'
    obtain ⟨k, rfl, -⟩ := resampleCal_label.mp hL
    obtain ⟨⟨t, ht, b⟩, ⟨u, hu, d⟩⟩ := (hlabP k).mp hL
    exact ⟨(isLabel_iff c _).mpr ⟨k, rfl⟩, ⟨t, ht, (not_after_iff c k t).mp b⟩, ⟨u, hu, (not_before_iff c k u).mp d⟩,
      hval k hL⟩
  · rintro ⟨a, ⟨t, ht, b⟩, ⟨u, hu, d⟩, rfl⟩
    obtain ⟨k, rfl⟩ := (isLabel_iff c L).mp a
    have hL := (hlabP k).mpr ⟨⟨t, ht, (not_after_iff c k t).mpr b⟩, ⟨u, hu, (not_before_iff c k u).mpr d⟩⟩
    exact ⟨periodLabel c k, (hlab _).mpr hL, rfl, hval k hL⟩

/-- **C132 (order).** The periods are reported in order of time, none twice. -/
theorem C132_chronological (energy insol : Series) (c : CalFreq) :
    StrictSorted ((aggregationInsolCal energy insol c).map Prod.fst) := by
  unfold aggregationInsolCal
  simp only [List.map_map, Function.comp_def, List.map_id']
  exact sortedUnion_sorted _

/-- **C132 (one period each).** Every sample of either series belongs to exactly one reported period; with month starts, the month
that begins on or before it, with ends the one that ends on or after its day. -/
theorem C132_every_sample {energy insol : Series} (hn : (insol.map Prod.fst).Nodup) (c : CalFreq) {t : Int}
    (ht : SampledAt energy insol t) :
    ∃! L, L ∈ (aggregationInsolCal energy insol c).map Prod.fst ∧ InCal c L t := by
  refine ⟨periodLabel c (periodNo c t), ⟨List.mem_map.mpr ⟨(periodLabel c (periodNo c t),
    Flt.ofDiv (weightedCal energy insol c (periodLabel c (periodNo c t)))
      (insolationCal insol c (periodLabel c (periodNo c t)))), ?_, rfl⟩, ?_⟩, ?_⟩
  · rw [C132_periods hn]
    have h := (inCal_iff c (periodNo c t) t).mpr rfl
    exact ⟨(isLabel_iff c _).mpr ⟨_, rfl⟩, ⟨t, ht, .inl h⟩, ⟨t, ht, .inl h⟩, rfl⟩
  · exact (inCal_iff c (periodNo c t) t).mpr rfl
  · rintro L ⟨hL, hI⟩
    obtain ⟨⟨L', v⟩, hm, rfl⟩ := List.mem_map.mp hL
    obtain ⟨k, e⟩ := (isLabel_iff c L').mp ((C132_periods hn).mp hm).1
    simp only at hI ⊢
    rw [e] at hI ⊢
    rw [(inCal_iff c k t).mp hI]

/-- **C132 (weighted mean).** If in a period every insolation has an energy of the same time, no insolation is negative and some is
positive, the value of the period lies between the energies of the period. -/
theorem C132_between {energy insol : Series} (hn : (insol.map Prod.fst).Nodup) {c : CalFreq} {L : Int} {v : Flt}
    (h : (L, v) ∈ aggregationInsolCal energy insol c)
    (hc : ∀ r ∈ insol, InCal c L r.1 → ∃ w e, r.2 = some w ∧ 0 ≤ w ∧ lookupK energy r.1 = some e)
    (hpos : ∃ r ∈ insol, InCal c L r.1 ∧ ∃ w, r.2 = some w ∧ 0 < w) :
    ∃ q : ℚ, v = .fin q ∧
      (∀ m, (∀ r ∈ insol, InCal c L r.1 → ∀ e, lookupK energy r.1 = some e → m ≤ e) → m ≤ q) ∧
      (∀ m, (∀ r ∈ insol, InCal c L r.1 → ∀ e, lookupK energy r.1 = some e → e ≤ m) → q ≤ m) := by
  obtain ⟨-, -, -, rfl⟩ := (C132_periods hn).mp h
  have key : ∀ l : Series, (∀ r ∈ l, ∃ w e, r.2 = some w ∧ 0 ≤ w ∧ lookupK energy r.1 = some e) →
      0 ≤ (l.map fun r => r.2.getD 0).sum ∧ ((∃ r ∈ l, ∃ w, r.2 = some w ∧ 0 < w) → 0 < (l.map fun r => r.2.getD 0).sum) ∧
      (∀ m, (∀ r ∈ l, ∀ e, lookupK energy r.1 = some e → m ≤ e) →
        m * (l.map fun r => r.2.getD 0).sum ≤ (l.map fun r => r.2.getD 0 * (lookupK energy r.1).getD 0).sum) ∧
      (∀ m, (∀ r ∈ l, ∀ e, lookupK energy r.1 = some e → e ≤ m) →
        (l.map fun r => r.2.getD 0 * (lookupK energy r.1).getD 0).sum ≤ m * (l.map fun r => r.2.getD 0).sum) := by
    intro l
    induction l with
    | nil => intro _; simp
    | cons r l ih =>
      intro hl
      obtain ⟨g0, g1, g2, g3⟩ := ih fun x hx => hl x (List.mem_cons_of_mem _ hx)
      obtain ⟨w, e, hw, h0, he⟩ := hl r (List.mem_cons_self ..)
      simp only [List.map_cons, List.sum_cons, hw, he, Option.getD_some]
      refine ⟨by linarith, ?_, ?_, ?_⟩
      · rintro ⟨x, hx, y, hy, hy0⟩
        rcases List.mem_cons.mp hx with rfl | hx
        · rw [hw] at hy; cases hy; linarith
        · have := g1 ⟨x, hx, y, hy, hy0⟩; linarith
      · intro m hm
        have a := g2 m fun x hx => hm x (List.mem_cons_of_mem _ hx)
        have b := mul_le_mul_of_nonneg_left (hm r (List.mem_cons_self ..) e he) h0
        linarith
      · intro m hm
        have a := g3 m fun x hx => hm x (List.mem_cons_of_mem _ hx)
        have b := mul_le_mul_of_nonneg_left (hm r (List.mem_cons_self ..) e he) h0
        linarith
  have hmem : ∀ r, r ∈ (insol.filter fun r => decide (InCal c L r.1)) ↔ r ∈ insol ∧ InCal c L r.1 := by
    intro r; rw [List.mem_filter, decide_eq_true_eq]
  obtain ⟨-, g1, g2, g3⟩ := key (insol.filter fun r => decide (InCal c L r.1)) fun r hr =>
    hc r ((hmem r).mp hr).1 ((hmem r).mp hr).2
  obtain ⟨r, hr, hi, w, hw, h0⟩ := hpos
  have hp : 0 < insolationCal insol c L := g1 ⟨r, (hmem r).mpr ⟨hr, hi⟩, w, hw, h0⟩
  refine ⟨weightedCal energy insol c L / insolationCal insol c L, ?_, ?_, ?_⟩
  · simp [Flt.ofDiv, ne_of_gt hp]
  · intro m hm
    rw [le_div_iff₀ hp]
    exact g2 m fun r hr => hm r ((hmem r).mp hr).1 ((hmem r).mp hr).2
  · intro m hm
    rw [div_le_iff₀ hp]
    exact g3 m fun r hr => hm r ((hmem r).mp hr).1 ((hmem r).mp hr).2

/-- three days around the end of February 2020, a leap year, and one in April -/
def exLeap : Series × Series :=
  ([(18321 * dayNs + 5, some 2), (18322 * dayNs, some 3), (18355 * dayNs, some 4)],
   [(18321 * dayNs + 5, some 1), (18322 * dayNs, some 2), (18355 * dayNs, some 1)])

example : aggregationInsolCal exLeap.1 exLeap.2 .monthEnd =
    [(18321 * dayNs, .fin 2), (18352 * dayNs, .fin 3), (18382 * dayNs, .fin 4)] := by decide +kernel
example : aggregationInsolCal exLeap.1 exLeap.2 .monthStart =
    [(18293 * dayNs, .fin 2), (18322 * dayNs, .fin 3), (18353 * dayNs, .fin 4)] := by decide +kernel
example : aggregationInsolCal exLeap.1 exLeap.2 .yearEnd = [(18627 * dayNs, .fin 3)] := by decide +kernel
example : (aggregationInsolCal exLeap.1 exLeap.2 .week).head? = some (18322 * dayNs, .fin (8/3)) := by decide +kernel
example : InCal .monthEnd (18352 * dayNs) (18352 * dayNs + 86399 * 10^9) ∧ IsLabel .monthEnd (18321 * dayNs) ∧
    ¬ IsLabel .monthEnd (18320 * dayNs) := by
  refine ⟨by decide +kernel, ⟨by decide +kernel, by decide +kernel⟩, fun h => absurd h.2 (by decide +kernel)⟩

end Verif
