import Verif.Props.Energy
import Verif.Props.Interpolate

/-! # C148: later readings do not change earlier interpolated values and energies -/

namespace Verif

open Spec

theorem dropna_append (a b : Series) : dropna (a ++ b) = dropna a ++ dropna b := by
  unfold dropna; exact List.filterMap_append

theorem increasing_left {a b : Series} (h : Increasing (a ++ b)) : Increasing a := by
  unfold Increasing at *
  rw [List.map_append] at h
  exact (List.pairwise_append.mp h).1

theorem increasing_cross {a b : Series} (h : Increasing (a ++ b)) : ∀ p ∈ a, ∀ q ∈ b, p.1 < q.1 := by
  unfold Increasing at h
  rw [List.map_append] at h
  intro p hp q hq
  exact (List.pairwise_append.mp h).2.2 _ (List.mem_map_of_mem hp) _ (List.mem_map_of_mem hq)

/-- the pointwise value does not see rows after a later valid row -/
theorem valueAt_append {d e : List (Int × ℚ)} (hs : StrictSorted (keys (d ++ e))) {u : Int} {v : ℚ}
    (hu : (u, v) ∈ d) (M : Cell) {t : Int} (ht : t ≤ u) : valueAt (d ++ e) M t = valueAt d M t := by
  have hs' : StrictSorted (keys d) ∧ ∀ p ∈ d, ∀ q ∈ e, p.1 < q.1 := by
    unfold keys StrictSorted at *
    rw [List.map_append] at hs
    obtain ⟨h1, _, h3⟩ := List.pairwise_append.mp hs
    exact ⟨h1, fun p hp q hq => h3 _ (List.mem_map_of_mem hp) _ (List.mem_map_of_mem hq)⟩
  have hlate : ∀ q ∈ e, t < q.1 := fun q hq => lt_of_le_of_lt ht (hs'.2 _ hu q hq)
  have hl : lookupK (toSeries (d ++ e)) t = lookupK (toSeries d) t := by
    apply Option.ext
    intro w
    rw [lookup_toSeries_some hs, lookup_toSeries_some hs'.1, List.mem_append]
    exact ⟨fun h => h.resolve_right fun h' => lt_irrefl _ (hlate _ h'), Or.inl⟩
  have hp : prevRow (d ++ e) t = prevRow d t := by
    unfold prevRow
    have he : (e.filter fun r => decide (r.1 < t)) = [] := by
      rw [List.filter_eq_nil_iff]
      intro q hq; have := hlate q hq; simp; omega
    rw [List.filter_append, he, List.append_nil]
  unfold valueAt
  rw [hl, hp]
  rcases eq_or_lt_of_le ht with rfl | hlt
  · rw [(lookup_toSeries_some hs'.1).mpr hu]
  · have hn : nextRow (d ++ e) t = nextRow d t := by
      unfold nextRow
      rw [List.filter_append, List.head?_append]
      cases hh : (d.filter fun r => decide (t < r.1)).head? with
      | some _ => rfl
      | none =>
        rw [List.head?_eq_none_iff, List.filter_eq_nil_iff] at hh
        exact absurd (hh _ hu) (by simpa using hlt)
    rw [hn]

/-- **C148 (interpolation).** When a series is continued with later samples, the value interpolated
(with a given `max_timedelta`) at a time that is not after some valid sample of the shorter series
stays the same, whatever else the two target indexes contain. -/
theorem C148_interpolate {ts later : Series} (hs : Increasing (ts ++ later)) {target target' : List Int}
    {m : ℚ} {tzS tzT tzS' tzT' : Bool} {out out' : List (Int × Cell)}
    (h : interpolate ts tzS tzT target (some m) = .ok out)
    (h' : interpolate (ts ++ later) tzS' tzT' target' (some m) = .ok out')
    {u : Int} {v : ℚ} (hu : ValidAt ts u v) {t : Int} (ht : t ≤ u) {c c' : Cell}
    (hc : (t, c) ∈ out) (hc' : (t, c') ∈ out') : c' = c := by
  rw [(mem_interpolate (increasing_left hs) (interpolate_ok h)).2 t c hc,
    (mem_interpolate hs (interpolate_ok h')).2 t c' hc', dropna_append]
  have hd := dropna_sorted hs
  rw [dropna_append] at hd
  exact valueAt_append hd (mem_dropna.mpr hu) _ ht

theorem zip_tail_fst_ge {l : List Int} {a : Int} (hs : StrictSorted (a :: l)) :
    ∀ p ∈ (a :: l).zip l, a ≤ p.1 := by
  intro p hp
  have := (List.of_mem_zip hp).1
  rcases List.mem_cons.mp this with e | h
  · exact le_of_eq e.symm
  · exact le_of_lt ((List.pairwise_cons.mp hs).1 _ h)

/-- index steps that contain a time not after an index entry of the shorter index -/
theorem zip_tail_append {l1 l2 : List Int} (hs : StrictSorted (l1 ++ l2)) {u : Int} (hu : u ∈ l1)
    {p : Int × Int} (hp : p.1 < u) : p ∈ (l1 ++ l2).zip (l1 ++ l2).tail ↔ p ∈ l1.zip l1.tail := by
  induction l1 with
  | nil => cases hu
  | cons a l1 ih =>
    have hs' : StrictSorted (l1 ++ l2) := (List.pairwise_cons.mp hs).2
    rcases List.mem_cons.mp hu with e | hu'
    · subst e
      constructor
      · intro h; exact absurd (zip_tail_fst_ge hs p h) (not_le.mpr hp)
      · intro h
        have : StrictSorted (u :: l1) := by
          have h' : StrictSorted ((u :: l1) ++ l2) := hs
          exact (List.pairwise_append.mp h').1
        exact absurd (zip_tail_fst_ge this p h) (not_le.mpr hp)
    · cases l1 with
      | nil => cases hu'
      | cons b l1 =>
        have := ih hs' hu'
        simp only [List.cons_append, List.tail_cons, List.zip_cons_cons, List.mem_cons] at this ⊢
        rw [this]

theorem inLongStep_append {ts later : Series} (hs : Increasing (ts ++ later)) {u : Int} {v : ℚ}
    (hu : ValidAt ts u v) {L : Int} (hL : L ≤ u) (m : ℚ) :
    InLongStep (ts ++ later) m L ↔ InLongStep ts m L := by
  unfold InLongStep
  have hs' : StrictSorted (ts.map Prod.fst ++ later.map Prod.fst) := by
    rw [← List.map_append]; exact hs
  have hmem : u ∈ ts.map Prod.fst := List.mem_map.mpr ⟨_, hu, rfl⟩
  rw [List.map_append]
  constructor
  · rintro ⟨p, hp, h1, h2⟩
    exact ⟨p, (zip_tail_append hs' hmem (lt_of_lt_of_le h1 hL)).mp hp, h1, h2⟩
  · rintro ⟨p, hp, h1, h2⟩
    exact ⟨p, (zip_tail_append hs' hmem (lt_of_lt_of_le h1 hL)).mpr hp, h1, h2⟩

theorem rows_ge {d : List (Int × ℚ)} {r : Int × ℚ} (hs : StrictSorted (keys (r :: d))) :
    ∀ q ∈ r :: d, r.1 ≤ q.1 := by
  intro q hq
  rcases List.mem_cons.mp hq with e | h
  · rw [e]
  · exact le_of_lt ((List.pairwise_cons.mp hs).1 _ (List.mem_map_of_mem h))

theorem rectContributions_append {m : ℚ} {x y u : Int} {v : ℚ} (hy : y ≤ u) {d e : List (Int × ℚ)}
    (hs : StrictSorted (keys (d ++ e))) (hu : (u, v) ∈ d) :
    rectContributions m x y (d ++ e) = rectContributions m x y d := by
  induction d with
  | nil => cases hu
  | cons r d ih =>
    have hs' : StrictSorted (keys (d ++ e)) := (List.pairwise_cons.mp hs).2
    rcases List.mem_cons.mp hu with e' | hu'
    · subst e'
      have hge : ∀ q ∈ ((u, v) :: d) ++ e, y ≤ q.1 := fun q hq => le_trans hy (rows_ge hs q hq)
      rw [contributions_none_of_le hge,
        contributions_none_of_le fun q hq => hge q (List.mem_append_left _ hq)]
    · cases d with
      | nil => cases hu'
      | cons s d =>
        have := ih hs' hu'
        simp only [List.cons_append, rectContributions] at this ⊢
        rw [this]

theorem trapIntegral_zero {x y : Int} {d : List (Int × ℚ)} (h : ∀ q ∈ d, y ≤ q.1) :
    trapIntegral x y d = 0 := by
  induction d with
  | nil => rfl
  | cons r d ih =>
    obtain ⟨a, va⟩ := r
    have ha : y ≤ a := h (a, va) (by simp)
    cases d with
    | nil =>
      simp only [trapIntegral]
      rw [show max 0 (y - max a x) = 0 by omega]; simp
    | cons s d =>
      obtain ⟨b, vb⟩ := s
      simp only [trapIntegral]
      rw [if_neg (by omega), ih fun q hq => h q (List.mem_cons_of_mem _ hq), add_zero]

theorem trapIntegral_append {x y u : Int} {v : ℚ} (hy : y ≤ u) {d e : List (Int × ℚ)}
    (hs : StrictSorted (keys (d ++ e))) (hu : (u, v) ∈ d) :
    trapIntegral x y (d ++ e) = trapIntegral x y d := by
  induction d with
  | nil => cases hu
  | cons r d ih =>
    have hs' : StrictSorted (keys (d ++ e)) := (List.pairwise_cons.mp hs).2
    rcases List.mem_cons.mp hu with e' | hu'
    · subst e'
      have hge : ∀ q ∈ ((u, v) :: d) ++ e, y ≤ q.1 := fun q hq => le_trans hy (rows_ge hs q hq)
      rw [trapIntegral_zero hge, trapIntegral_zero fun q hq => hge q (List.mem_append_left _ hq)]
    · cases d with
      | nil => cases hu'
      | cons s d =>
        have := ih hs' hu'
        simp only [List.cons_append, trapIntegral] at this ⊢
        rw [this]

theorem validRows_append (a b : Series) : validRows (a ++ b) = validRows a ++ validRows b := by
  unfold validRows; exact List.filterMap_append

theorem validRows_sorted {a : Series} (h : Increasing a) : StrictSorted (keys (validRows a)) :=
  dropna_sorted h

theorem mem_validRows {ts : Series} {t : Int} {v : ℚ} : (t, v) ∈ validRows ts ↔ ValidAt ts t v :=
  mem_dropna

theorem ends_of_length {p : Series} (hlen : 2 ≤ p.length) :
    ∃ t0 tn, (p.map Prod.fst).head? = some t0 ∧ (p.map Prod.fst).getLast? = some tn := by
  cases p with
  | nil => simp at hlen
  | cons a l => exact ⟨_, _, rfl, List.getLast?_eq_some_getLast (by simp)⟩

/-- **C148 (right-labeled energy).** Power sampled more often than the requested period is continued
with later samples, still sampled more often than the period. With a given `max_timedelta`, the
energy of every period that ends not after the last valid sample of the shorter record is the same
for both records. -/
theorem C148_energy {power later : Series} (hs : Increasing (power ++ later)) (hlen : 2 ≤ power.length)
    {f : Int} (hf : 0 < f) {g g' : ℚ} (hg : IsMedian (indexSteps power) g) (hgf : g < f)
    (hg' : IsMedian (indexSteps (power ++ later)) g') (hgf' : g' < f) {m : ℚ} {fr fr' : Option Int}
    {out out' : List (Int × Cell)}
    (h : energyFromPower power (some f) (some m) .rightLabeled fr = .ok out)
    (h' : energyFromPower (power ++ later) (some f) (some m) .rightLabeled fr' = .ok out')
    {u : Int} {v : ℚ} (hu : ValidAt power u v) {L : Int} (hL : L ≤ u) :
    (L ∈ out.map Prod.fst ↔ L ∈ out'.map Prod.fst) ∧
      ∀ e e', (L, e) ∈ out → (L, e') ∈ out' → e' = e := by
  have hs0 := increasing_left hs
  have hlen' : 2 ≤ (power ++ later).length := by rw [List.length_append]; omega
  obtain ⟨t0, tn, h0, hn⟩ := ends_of_length hlen
  obtain ⟨t0', tn', h0', hn'⟩ := ends_of_length hlen'
  have hu' : ValidAt (power ++ later) u v := List.mem_append_left _ hu
  obtain ⟨o, ho, hk, hv⟩ := C05_right_labeled hs0 hlen ⟨u, v, hu⟩ hf hg hgf m fr h0 hn
  obtain ⟨o', ho', hk', hv'⟩ := C05_right_labeled hs hlen' ⟨u, v, hu'⟩ hf hg' hgf' m fr' h0' hn'
  rw [h] at ho; rw [h'] at ho'
  cases ho; cases ho'
  have ht : t0' = t0 := by
    rw [List.map_append, List.head?_append, h0] at h0'
    simpa using h0'.symm
  have hlast : ∀ {p : Series} {w : Int}, Increasing p → (p.map Prod.fst).getLast? = some w →
      ValidAt p u v → u ≤ w := by
    intro p w hp hw hpu
    have hmem : u ∈ p.map Prod.fst := List.mem_map.mpr ⟨_, hpu, rfl⟩
    unfold Increasing at hp
    obtain ⟨l, hl⟩ := List.getLast?_eq_some_iff.mp hw
    rw [hl] at hp hmem
    rcases List.mem_append.mp hmem with h1 | h1
    · exact le_of_lt ((List.pairwise_append.mp hp).2.2 _ h1 _ (by simp))
    · exact le_of_eq (by simpa using h1)
  have hb := hlast hs0 hn hu
  have hb' := hlast hs hn' hu'
  refine ⟨?_, fun e e' he he' => ?_⟩
  · rw [hk, hk', ht]
    constructor
    · rintro ⟨k, hk1, _⟩; exact ⟨k, hk1, by omega⟩
    · rintro ⟨k, hk1, _⟩; exact ⟨k, hk1, by omega⟩
  · rw [hv L e he, hv' L e' he', validRows_append, rectContributions_append hL
      (by rw [← validRows_append]; exact validRows_sorted hs) (mem_validRows.mpr hu)]
    simp only [inLongStep_append hs hu hL]

/-- **C148 (instantaneous energy).** The same for gap-free instantaneous power. -/
theorem C148_energy_instantaneous {power later : Series} (hs : Increasing (power ++ later))
    (hlen : 2 ≤ power.length) (hnn : ∀ r ∈ power ++ later, r.2 ≠ none) {f : Int} (hf : 0 < f)
    {g g' m : ℚ} (hg : IsMedian (indexSteps power) g) (hgf : g < f)
    (hg' : IsMedian (indexSteps (power ++ later)) g') (hgf' : g' < f)
    (hgap : ∀ s ∈ indexSteps power, s ≤ m) (hgap' : ∀ s ∈ indexSteps (power ++ later), s ≤ m)
    {fr fr' : Option Int} {out out' : List (Int × Cell)}
    (h : energyFromPower power (some f) (some m) .instantaneous fr = .ok out)
    (h' : energyFromPower (power ++ later) (some f) (some m) .instantaneous fr' = .ok out')
    {u : Int} {v : ℚ} (hu : ValidAt power u v) {L : Int} (hL : L ≤ u) {e e' : Cell}
    (he : (L, e) ∈ out) (he' : (L, e') ∈ out') : e' = e := by
  have hs0 := increasing_left hs
  have hlen' : 2 ≤ (power ++ later).length := by rw [List.length_append]; omega
  obtain ⟨t0, tn, h0, hn⟩ := ends_of_length hlen
  obtain ⟨t0', tn', h0', hn'⟩ := ends_of_length hlen'
  obtain ⟨o, ho, _, hv⟩ := C06_instantaneous_integral hs0 hlen
    (fun r hr => hnn r (List.mem_append_left _ hr)) hf hg hgf hgap fr h0 hn
  obtain ⟨o', ho', _, hv'⟩ := C06_instantaneous_integral hs hlen' hnn hf hg' hgf' hgap' fr' h0' hn'
  rw [h] at ho; rw [h'] at ho'
  cases ho; cases ho'
  rw [hv L e he, hv' L e' he', validRows_append, trapIntegral_append hL
      (by rw [← validRows_append]; exact validRows_sorted hs) (mem_validRows.mpr hu)]

/-- half an hour in ns -/
private def hh : Int := 1800000000000

/-- The restriction to a period that ends within the shorter record is needed: the energy of its
last, incomplete period changes. -/
theorem C148_last_period_refuted : ∃ (power later : Series) (f : Int) (m : ℚ) (L : Int) (e e' : ℚ),
    Increasing (power ++ later) ∧
      energyFromPower power (some f) (some m) .rightLabeled none = .ok [(2 * hh, some 4), (L, some e)] ∧
      energyFromPower (power ++ later) (some f) (some m) .rightLabeled none =
        .ok [(2 * hh, some 4), (L, some e')] ∧ e ≠ e' :=
  ⟨[(0, some 4), (hh, some 4), (2 * hh, some 4), (3 * hh, some 4)], [(4 * hh, some 6)], 2 * hh, hh,
    4 * hh, 2, 5, by decide +kernel⟩

/-- The restriction to a given `max_timedelta` is needed: the default limit is twice the median gap
of the whole record, so a later stretch of denser data turns an earlier interpolated value into NaN. -/
theorem C148_default_limit_refuted : ∃ (ts later : Series) (t u : Int) (v y : ℚ),
    Increasing (ts ++ later) ∧ ValidAt ts u v ∧ t ≤ u ∧
      interpolate ts true true [t] none = .ok [(t, some y)] ∧
      interpolate (ts ++ later) true true [t] none = .ok [(t, none)] :=
  ⟨[(0, some 1), (4, some 5), (8, some 9)], [(9, some 9), (10, some 9), (11, some 9)], 2, 4, 5, 3,
    by decide +kernel, by simp [ValidAt], by decide, by decide +kernel, by decide +kernel⟩

/-- a record and its continuation that meet the hypotheses of `C148_energy`, with a gap in it -/
example : let p : Series := [(0, some 4), (hh, some 2), (2 * hh, none), (3 * hh, some 6)]
    let q : Series := [(4 * hh, some 1), (8 * hh, some 1), (9 * hh, some 5)]
    Increasing (p ++ q) ∧ median (indexSteps p) = some hh ∧ median (indexSteps (p ++ q)) = some hh ∧
      energyFromPower p (some (2 * hh)) (some (2 * hh)) .rightLabeled none =
        .ok [(2 * hh, some 4), (4 * hh, some 3)] ∧
      energyFromPower (p ++ q) (some (2 * hh)) (some (2 * hh)) .rightLabeled none =
        .ok [(2 * hh, some 4), (4 * hh, some (7 / 2)), (6 * hh, none), (8 * hh, none),
          (10 * hh, some (5 / 2))] := by decide +kernel
example : ValidAt [(0, some 4), (hh, some 2), (2 * hh, none), (3 * hh, some 6)] (3 * hh) 6 := by
  simp [ValidAt]
/-- gap-free instantaneous power -/
example : let p : Series := [(0, some 4), (hh, some 2), (2 * hh, some 6), (3 * hh, some 6)]
    let q : Series := [(4 * hh, some 1)]
    Increasing (p ++ q) ∧ (∀ r ∈ p ++ q, r.2 ≠ none) ∧ (∀ s ∈ indexSteps (p ++ q), s ≤ (hh : ℚ)) ∧
      energyFromPower p (some (2 * hh)) (some hh) .instantaneous none =
        .ok [(2 * hh, some (7 / 2)), (4 * hh, some 6)] ∧
      energyFromPower (p ++ q) (some (2 * hh)) (some hh) .instantaneous none =
        .ok [(2 * hh, some (7 / 2)), (4 * hh, some (19 / 4))] := by decide +kernel

end Verif
