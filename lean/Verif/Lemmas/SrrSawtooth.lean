import Mathlib.Data.Finset.Card
import Mathlib.Order.Interval.Finset.Nat
import Verif.Spec.SrrSawtooth
import Verif.Lemmas.SrrShift
import Verif.Lemmas.SrrFit

/-! # The rolling median of a system that soils between cleanings -/

namespace Verif
open Spec

/-- the days around `i` with a value up to `a` -/
def lowDays (u : Nat → ℚ) (h i : Nat) (a : ℚ) : Finset Nat :=
  (Finset.Icc (i - h) (i + h)).filter fun j => u j ≤ a

theorem mem_lowDays {u : Nat → ℚ} {h i : Nat} {a : ℚ} {j : Nat} :
    j ∈ lowDays u h i a ↔ i - h ≤ j ∧ j ≤ i + h ∧ u j ≤ a := by
  simp [lowDays, and_assoc]

theorem oddMedian_le {l : List ℚ} {h : Nat} (hl : l.length = 2 * h + 1) {m : ℚ} (hm : IsMedian l m) (a : ℚ) :
    m ≤ a ↔ h + 1 ≤ l.countP fun x => decide (x ≤ a) := by
  obtain ⟨s, hp, hs, hne, rfl⟩ := hm
  have hsl : s.length = 2 * h + 1 := by rw [hp.length_eq, hl]
  rw [← hp.countP_eq]
  have e1 : (s.length - 1) / 2 = h := by omega
  have e2 : s.length / 2 = h := by omega
  rw [e1, e2]
  have hh : h < s.length := by omega
  have e3 : s.getD h 0 = s[h] := by simp [List.getD_eq_getElem?_getD, hh]
  rw [e3, show (s[h] + s[h]) / 2 = s[h] by ring]
  have hsort := List.pairwise_iff_getElem.mp hs
  constructor
  · intro hle
    have h1 : (s.take (h + 1)).countP (fun x => decide (x ≤ a)) = (s.take (h + 1)).length := by
      rw [List.countP_eq_length]
      intro x hx
      obtain ⟨k, hk, rfl⟩ := List.getElem_of_mem hx
      simp only [List.length_take] at hk
      rw [List.getElem_take]
      have : s[k] ≤ s[h] := by
        rcases Nat.lt_or_ge k h with g | g
        · exact hsort k h (by omega) hh g
        · obtain rfl : k = h := by omega
          exact le_refl _
      simpa using this.trans hle
    have h2 := (List.take_sublist (h + 1) s).countP_le (p := fun x => decide (x ≤ a))
    rw [h1, List.length_take] at h2
    omega
  · intro hc
    by_contra hlt
    push Not at hlt
    have h1 : s.countP (fun x => decide (x ≤ a)) =
        (s.take h).countP (fun x => decide (x ≤ a)) + (s.drop h).countP (fun x => decide (x ≤ a)) := by
      rw [← List.countP_append, List.take_append_drop]
    have h2 : (s.drop h).countP (fun x => decide (x ≤ a)) = 0 := by
      rw [List.countP_eq_zero]
      intro x hx
      obtain ⟨k, hk, rfl⟩ := List.getElem_of_mem hx
      simp only [List.length_drop] at hk
      rw [List.getElem_drop]
      have : s[h] ≤ s[h + k] := by
        rcases Nat.eq_zero_or_pos k with g | g
        · subst g; exact le_refl _
        · exact hsort h (h + k) hh (by omega) (by omega)
      simpa using lt_of_lt_of_le hlt this
    have h3 : (s.take h).countP (fun x => decide (x ≤ a)) ≤ (s.take h).length := List.countP_le_length
    rw [List.length_take] at h3
    omega

/-- the values of the days around `i` -/
def around (u : Nat → ℚ) (h i : Nat) : List ℚ := (List.range (2 * h + 1)).map fun k => u (i - h + k)

theorem around_count (u : Nat → ℚ) {h i : Nat} (hi : h ≤ i) (a : ℚ) :
    (around u h i).countP (fun x => decide (x ≤ a)) = (lowDays u h i a).card := by
  unfold around
  rw [List.countP_map]
  have e : (lowDays u h i a) = ((Finset.range (2 * h + 1)).filter fun k => u (i - h + k) ≤ a).image
      fun k => i - h + k := by
    ext j
    rw [mem_lowDays]
    simp only [Finset.mem_image, Finset.mem_filter, Finset.mem_range]
    constructor
    · rintro ⟨h1, h2, h3⟩
      exact ⟨j - (i - h), ⟨by omega, by rwa [show i - h + (j - (i - h)) = j by omega]⟩, by omega⟩
    · rintro ⟨k, ⟨h1, h2⟩, rfl⟩
      exact ⟨by omega, by omega, h2⟩
  rw [e, Finset.card_image_of_injective _ (fun a b h => by simpa using h)]
  rw [List.countP_eq_length_filter]
  rfl

theorem cellAt_full {u : Nat → ℚ} {n i : Nat} :
    cellAt ((List.range n).map fun i => some (u i)) i = if i < n then some (u i) else none :=
  cellAt_range_map

theorem filledAt_full {u : Nat → ℚ} {n lim i : Nat} {v : ℚ} :
    FilledAt lim ((List.range n).map fun i => some (u i)) i v ↔ i < n ∧ v = u i := by
  unfold FilledAt
  simp only [List.length_map, List.length_range, cellAt_full]
  constructor
  · rintro ⟨h1, j, h2, h3, h4, h5⟩
    refine ⟨h1, ?_⟩
    rcases Nat.lt_or_eq_of_le h2 with g | rfl
    · have := h5 i g (le_refl _)
      rw [if_pos h1] at this
      simp at this
    · rw [if_pos h1] at h4
      exact (Option.some.inj h4).symm
  · rintro ⟨h1, rfl⟩
    exact ⟨h1, i, le_refl _, by omega, by rw [if_pos h1], fun k h2 h3 => by omega⟩

theorem medianAround_full {u : Nat → ℚ} {n h i : Nat} {m : ℚ} :
    MedianAround (2 * h + 1) ((List.range n).map fun i => some (u i)) i m ↔
      h ≤ i ∧ i + h < n ∧ IsMedian (around u h i) m := by
  unfold MedianAround
  rw [show (2 * h + 1) / 2 = h by omega, show (2 * h + 1 - 1) / 2 = h by omega]
  simp only [filledAt_full, List.length_map, List.length_range]
  constructor
  · rintro ⟨h1, h2, win, h3, h4, h5⟩
    refine ⟨h1, h2, ?_⟩
    have : win = around u h i := by
      apply List.ext_getElem
      · simp [around, h3]
      · intro k g1 g2
        rw [(h4 k g1).2]
        simp [around]
    rwa [← this]
  · rintro ⟨h1, h2, h3⟩
    refine ⟨h1, h2, around u h i, by simp [around], fun k hk => ?_, h3⟩
    have hk' : k < 2 * h + 1 := by simpa [around] using hk
    exact ⟨by omega, by simp [around]⟩

theorem around_median_exists (u : Nat → ℚ) (h i : Nat) : ∃ m, IsMedian (around u h i) m := by
  have : (around u h i) ≠ [] := by simp [around]
  obtain ⟨m, hm⟩ := Option.isSome_iff_exists.mp (median_isSome.mpr this)
  exact ⟨m, isMedian_iff.mpr hm⟩

theorem around_median_le {u : Nat → ℚ} {h i : Nat} (hi : h ≤ i) {m : ℚ} (hm : IsMedian (around u h i) m) (a : ℚ) :
    m ≤ a ↔ h + 1 ≤ (lowDays u h i a).card := by
  rw [oddMedian_le (h := h) (by simp [around]) hm a, around_count u hi]

/-! ## soiling between cleanings -/

theorem soils_mono {u : Nat → ℚ} {D : List Nat} {n : Nat} {m : ℚ} (hs : SoilsBetween u D n m) {p q : Nat}
    (hpq : p ≤ q) (hq : q < n) (hno : ∀ d ∈ D, p < d → q < d) : u q ≤ u p := by
  induction q with
  | zero => obtain rfl : p = 0 := by omega
            exact le_refl _
  | succ q ih =>
    rcases Nat.lt_or_eq_of_le hpq with g | rfl
    · have h1 := (hs q hq fun hd => by have := hno _ hd g; omega).1
      exact h1.trans (ih (by omega) (by omega) fun d hd hpd => by have := hno d hd hpd; omega)
    · exact le_refl _

theorem spaced_apart {D : List Nat} {n L : Nat} (h : Spaced D n L) {d e : Nat} (hd : d ∈ D) (he : e ∈ D)
    (hlt : d < e) (hL : 0 < L) : d + L ≤ e := by
  unfold Spaced at h
  rw [List.pairwise_cons, List.pairwise_append] at h
  obtain ⟨-, hD, -⟩ := h
  obtain ⟨i, hi, rfl⟩ := List.getElem_of_mem hd
  obtain ⟨j, hj, rfl⟩ := List.getElem_of_mem he
  have hp := List.pairwise_iff_getElem.mp hD
  rcases lt_trichotomy i j with g | g | g
  · exact hp i j hi hj g
  · subst g; omega
  · have := hp j i hj hi g; omega

theorem spaced_bounds {D : List Nat} {n L : Nat} (h : Spaced D n L) {d : Nat} (hd : d ∈ D) : L ≤ d ∧ d + L ≤ n := by
  unfold Spaced at h
  rw [List.pairwise_cons, List.pairwise_append] at h
  obtain ⟨h0, -, -, hn⟩ := h
  exact ⟨by simpa using h0 d (by simp [hd]), hn d hd n (by simp)⟩

theorem spaced_mono {D : List Nat} {n L L' : Nat} (h : Spaced D n L) (hL : L' ≤ L) : Spaced D n L' :=
  List.Pairwise.imp (fun {a b} (hab : a + L ≤ b) => by omega) h

theorem spaced_length {D : List Nat} {n L : Nat} (h : Spaced D n L) : (D.length + 1) * L ≤ n := by
  have key : ∀ (D : List Nat) (a : Nat), (a :: (D ++ [n])).Pairwise (fun a b => a + L ≤ b) →
      a + (D.length + 1) * L ≤ n := by
    intro D
    induction D with
    | nil => intro a h; simpa using h
    | cons d D ih =>
      intro a h
      rw [List.pairwise_cons] at h
      have h1 := h.1 d (by simp)
      have h2 := ih d h.2
      simp only [List.length_cons]
      have : (D.length + 1 + 1) * L = (D.length + 1) * L + L := by ring
      omega
  simpa using key D 0 h

theorem spaced_nodup {D : List Nat} {n L : Nat} (h : Spaced D n L) (hL : 0 < L) : D.Nodup := by
  unfold Spaced at h
  rw [List.pairwise_cons, List.pairwise_append] at h
  exact h.2.1.imp fun {a b} (hab : a + L ≤ b) => by omega

/-- away from cleanings the rolling median does not rise -/
theorem median_no_rise {u : Nat → ℚ} {D : List Nat} {n h : Nat} {m : ℚ} (hs : SoilsBetween u D n m)
    (hsp : Spaced D n (2 * h + 1)) {j : Nat} (hj : h ≤ j) (hn : j + 1 + h < n) (hD : j + 1 ∉ D) (a : ℚ)
    (hc : h + 1 ≤ (lowDays u h j a).card) : h + 1 ≤ (lowDays u h (j + 1) a).card := by
  by_cases h1 : u (j + 1 + h) ≤ a
  · have hsub : insert (j + 1 + h) ((lowDays u h j a).erase (j - h)) ⊆ lowDays u h (j + 1) a := by
      intro k hk
      rw [Finset.mem_insert, Finset.mem_erase] at hk
      rcases hk with rfl | ⟨hk1, hk2⟩
      · exact mem_lowDays.mpr ⟨by omega, by omega, h1⟩
      · obtain ⟨g1, g2, g3⟩ := mem_lowDays.mp hk2
        exact mem_lowDays.mpr ⟨by omega, by omega, g3⟩
    have hcard := Finset.card_le_card hsub
    rw [Finset.card_insert_of_notMem (by
      rw [Finset.mem_erase]
      rintro ⟨-, hk⟩
      have := (mem_lowDays.mp hk).2.1
      omega)] at hcard
    have := Finset.pred_card_le_card_erase (s := lowDays u h j a) (a := j - h)
    omega
  · push Not at h1
    by_cases h2 : u (j - h) ≤ a
    · by_cases hex : ∃ d ∈ D, j - h < d ∧ d ≤ j + 1 + h
      · obtain ⟨d, hd, hd1, hd2⟩ := hex
        have huniq : ∀ e ∈ D, j - h < e → e ≤ j + 1 + h → e = d := by
          intro e he g1 g2
          rcases lt_trichotomy e d with g | g | g
          · have := spaced_apart hsp he hd g (by omega); omega
          · exact g
          · have := spaced_apart hsp hd he g (by omega); omega
        have hne : d ≠ j + 1 := fun e => hD (e ▸ hd)
        rcases Nat.lt_or_ge (j + 1) d with g | g
        · have hsub : Finset.Icc (j + 1 - h) (j + 1) ⊆ lowDays u h (j + 1) a := by
            intro k hk
            rw [Finset.mem_Icc] at hk
            refine mem_lowDays.mpr ⟨hk.1, by omega, (soils_mono hs (p := j - h) (by omega) (by omega) ?_).trans h2⟩
            intro e he hlt
            by_contra hcon
            have := huniq e he hlt (by omega)
            omega
          have := Finset.card_le_card hsub
          rw [Nat.card_Icc] at this
          omega
        · exfalso
          have hsub : lowDays u h j a ⊆ Finset.Icc (j - h) (d - 1) := by
            intro k hk
            obtain ⟨g1, g2, g3⟩ := mem_lowDays.mp hk
            rw [Finset.mem_Icc]
            refine ⟨g1, ?_⟩
            by_contra hcon
            have := soils_mono hs (p := k) (q := j + 1 + h) (by omega) hn (by
              intro e he hlt
              by_contra hcon'
              have := huniq e he (by omega) (by omega)
              omega)
            linarith
          have := Finset.card_le_card hsub
          rw [Nat.card_Icc] at this
          omega
      · exfalso
        push Not at hex
        have := soils_mono hs (p := j - h) (q := j + 1 + h) (by omega) hn (fun d hd hlt => hex d hd hlt)
        linarith
    · push Not at h2
      have hsub : lowDays u h j a ⊆ lowDays u h (j + 1) a := by
        intro k hk
        obtain ⟨g1, g2, g3⟩ := mem_lowDays.mp hk
        refine mem_lowDays.mpr ⟨?_, by omega, g3⟩
        rcases Nat.eq_or_lt_of_le g1 with g | g
        · subst g; linarith
        · omega
      exact hc.trans (Finset.card_le_card hsub)

theorem restores_le {u : Nat → ℚ} {D : List Nat} {n h : Nat} {m J : ℚ} (hs : SoilsBetween u D n m)
    (hsp : Spaced D n (2 * h + 1)) (hr : Restores u D h J) (hJ : 0 ≤ J) {d : Nat} (hd : d ∈ D) : u (d - 1) ≤ u d := by
  obtain ⟨b1, b2⟩ := spaced_bounds hsp hd
  have h1 := soils_mono hs (p := d - 1 - h) (q := d - 1) (by omega) (by omega) (by
    intro e he hlt
    by_contra hcon
    have := spaced_apart hsp he hd (by omega) (by omega)
    omega)
  have h2 := soils_mono hs (p := d) (q := d + h) (by omega) (by omega) (by
    intro e he hlt
    have := spaced_apart hsp hd he hlt (by omega)
    omega)
  have := hr d hd
  linarith

/-- the rolling median never falls by more than the largest loss of a day -/
theorem median_fall {u : Nat → ℚ} {D : List Nat} {n h : Nat} {m J : ℚ} (hs : SoilsBetween u D n m)
    (hsp : Spaced D n (2 * h + 1)) (hr : Restores u D h J) (hJ : 0 ≤ J) (hm : 0 ≤ m) {j : Nat} (hj : h ≤ j)
    (hn : j + 1 + h < n) (a : ℚ) (hc : h + 1 ≤ (lowDays u h (j + 1) a).card) :
    h + 1 ≤ (lowDays u h j (a + m)).card := by
  have hsub : (lowDays u h (j + 1) a).image (fun k => k - 1) ⊆ lowDays u h j (a + m) := by
    intro k hk
    obtain ⟨q, hq, rfl⟩ := Finset.mem_image.mp hk
    obtain ⟨g1, g2, g3⟩ := mem_lowDays.mp hq
    refine mem_lowDays.mpr ⟨by omega, by omega, ?_⟩
    by_cases hd : q ∈ D
    · have := restores_le hs hsp hr hJ hd
      linarith
    · have := (hs (q - 1) (by omega) (by rwa [show q - 1 + 1 = q by omega])).2
      rw [show q - 1 + 1 = q by omega] at this
      linarith
  have := Finset.card_le_card hsub
  rw [Finset.card_image_of_injOn (by
    intro x hx y hy hxy
    have h1 := (mem_lowDays.mp hx).1
    have h2 := (mem_lowDays.mp hy).1
    simp only at hxy
    omega)] at this
  omega

/-- at a cleaning the rolling median rises at least from the value `h` days before the eve to the value
`h` days after -/
theorem median_rise {u : Nat → ℚ} {D : List Nat} {n h : Nat} {m J : ℚ} (hs : SoilsBetween u D n m)
    (hsp : Spaced D n (2 * h + 1)) (hr : Restores u D h J) {d : Nat} (hd : d ∈ D) {x y : ℚ}
    (hx : IsMedian (around u h d) x) (hy : IsMedian (around u h (d - 1)) y) : J < x - y := by
  obtain ⟨b1, b2⟩ := spaced_bounds hsp hd
  have hy' : y ≤ u (d - 1 - h) := by
    rw [around_median_le (by omega) hy]
    have hsub : Finset.Icc (d - 1 - h) (d - 1) ⊆ lowDays u h (d - 1) (u (d - 1 - h)) := by
      intro k hk
      rw [Finset.mem_Icc] at hk
      refine mem_lowDays.mpr ⟨hk.1, by omega, soils_mono hs hk.1 (by omega) ?_⟩
      intro e he hlt
      by_contra hcon
      have := spaced_apart hsp he hd (by omega) (by omega)
      omega
    have := Finset.card_le_card hsub
    rw [Nat.card_Icc] at this
    omega
  have hx' : u (d + h) ≤ x := by
    by_contra hlt
    push Not at hlt
    have hc := (around_median_le (by omega) hx x).mp (le_refl _)
    have hsub : lowDays u h d x ⊆ Finset.Icc (d - h) (d - 1) := by
      intro k hk
      obtain ⟨g1, g2, g3⟩ := mem_lowDays.mp hk
      rw [Finset.mem_Icc]
      refine ⟨g1, ?_⟩
      by_contra hcon
      have := soils_mono hs (p := k) (q := d + h) g2 (by omega) (by
        intro e he hlt
        have := spaced_apart hsp hd he (by omega) (by omega)
        omega)
      linarith
    have := Finset.card_le_card hsub
    rw [Nat.card_Icc] at this
    omega
  have := hr d hd
  linarith

/-! ## steps and threshold -/

theorem shiftAt_full {u : Nat → ℚ} {n h i : Nat} {d : ℚ} :
    ShiftAt (2 * h + 1) ((List.range n).map fun i => some (u i)) i d ↔
      h + 1 ≤ i ∧ i + h < n ∧ ∃ a b, IsMedian (around u h i) a ∧ IsMedian (around u h (i - 1)) b ∧ d = a - b := by
  unfold ShiftAt
  simp only [medianAround_full]
  constructor
  · rintro ⟨h0, a, b, ⟨h1, h2, h3⟩, ⟨h4, h5, h6⟩, h7⟩
    exact ⟨by omega, h2, a, b, h3, h6, h7⟩
  · rintro ⟨h1, h2, a, b, h3, h4, h5⟩
    exact ⟨by omega, a, b, ⟨by omega, h2, h3⟩, ⟨by omega, by omega, h4⟩, h5⟩

theorem step_bounds {u : Nat → ℚ} {D : List Nat} {n h : Nat} {m J : ℚ} (hs : SoilsBetween u D n m)
    (hsp : Spaced D n (2 * h + 1)) (hr : Restores u D h J) (hJ : 0 ≤ J) (hm : 0 ≤ m) {i : Nat} {d : ℚ}
    (hd : ShiftAt (2 * h + 1) ((List.range n).map fun i => some (u i)) i d) :
    -m ≤ d ∧ (i ∉ D → d ≤ 0) ∧ (i ∈ D → J < d) := by
  obtain ⟨h1, h2, a, b, ha, hb, rfl⟩ := shiftAt_full.mp hd
  obtain ⟨j, rfl⟩ : ∃ j, i = j + 1 := ⟨i - 1, by omega⟩
  rw [show j + 1 - 1 = j by omega] at hb
  refine ⟨?_, fun hi => ?_, fun hi => ?_⟩
  · have := (around_median_le (by omega) hb (a + m)).mpr (median_fall hs hsp hr hJ hm (by omega) h2 a
      ((around_median_le (by omega) ha a).mp (le_refl _)))
    linarith
  · have := (around_median_le (by omega) ha b).mpr (median_no_rise hs hsp (by omega) h2 hi b
      ((around_median_le (by omega) hb b).mp (le_refl _)))
    linarith
  · exact median_rise hs hsp hr hi ha (by rwa [show j + 1 - 1 = j by omega])

theorem sorted_count_le {s : List ℚ} (hs : s.Pairwise (· ≤ ·)) {m : ℚ} {K k : Nat}
    (hc : s.countP (fun x => decide (m < x)) ≤ K) (hk : k + K < s.length) : s.getD k 0 ≤ m := by
  have hk' : k < s.length := by omega
  rw [show s.getD k 0 = s[k] by simp [List.getD_eq_getElem?_getD, hk']]
  by_contra hlt
  push Not at hlt
  have h1 : (s.drop k).countP (fun x => decide (m < x)) = (s.drop k).length := by
    rw [List.countP_eq_length]
    intro x hx
    obtain ⟨q, hq, rfl⟩ := List.getElem_of_mem hx
    simp only [List.length_drop] at hq
    rw [List.getElem_drop]
    have : s[k] ≤ s[k + q] := by
      rcases Nat.eq_zero_or_pos q with g | g
      · subst g; exact le_refl _
      · exact List.pairwise_iff_getElem.mp hs k (k + q) hk' (by omega) (by omega)
    simpa using lt_of_lt_of_le hlt this
  have h2 := (List.drop_sublist k s).countP_le (p := fun x => decide (m < x))
  rw [h1, List.length_drop] at h2
  omega

theorem quantile34_le {l : List ℚ} {m q3 : ℚ} {K : Nat} (hc : l.countP (fun x => decide (m < x)) ≤ K)
    (hK : 4 * K + 1 ≤ l.length) (h3 : quantile l (3 / 4) = some q3) : q3 ≤ m := by
  obtain ⟨hne, rfl⟩ := quantile_eq_some h3
  have hlen : (sortQ l).length = l.length := (sortQ_perm l).length_eq
  have hpos : 0 < (sortQ l).length := by omega
  refine (quantileSorted_le_getD (sortQ_pairwise l) hpos (by norm_num) (by norm_num)
    (j := l.length - 1 - K) (by omega) ?_).trans (sorted_count_le (sortQ_pairwise l) (K := K) ?_ (by omega))
  · rw [hlen]
    have e : ((l.length - 1 - K : Nat) : ℚ) = l.length - 1 - K := by
      rw [Nat.cast_sub (by omega), Nat.cast_sub (by omega)]; simp
    rw [e]
    have : (4 * (K : ℚ) + 1) ≤ l.length := by exact_mod_cast hK
    linarith
  · rw [(sortQ_perm l).countP_eq]; exact hc

/-- the inferred threshold of a system that soils between cleanings -/
theorem inferred_bounds {u : Nat → ℚ} {D : List Nat} {n h : Nat} {m J : ℚ} (hs : SoilsBetween u D n m)
    (hsp : Spaced D n (2 * h + 1)) (hr : Restores u D h J) (hJ : 0 ≤ J) (hm : 0 ≤ m) (hh : 2 ≤ h) {l : List ℚ}
    {q1 q3 : ℚ} (hl : StepSizes (2 * h + 1) ((List.range n).map fun i => some (u i)) l)
    (h1 : quantile l (1 / 4) = some q1) (h3 : quantile l (3 / 4) = some q3) :
    0 ≤ q1 ∧ q1 ≤ q3 ∧ (D ≠ [] → q3 ≤ m) := by
  obtain ⟨ds, hnd, hmem, rfl⟩ := hl
  refine ⟨quantile_ge h1 (by norm_num) (by norm_num) ?_, ?_, fun hne => ?_⟩
  · intro x hx
    obtain ⟨y, -, rfl⟩ := List.mem_map.mp hx
    exact abs_nonneg _
  · obtain ⟨hne, rfl⟩ := quantile_eq_some h1
    obtain ⟨-, rfl⟩ := quantile_eq_some h3
    exact quantileSorted_mono (sortQ_pairwise _) (sortQ_length_pos hne) (by norm_num) (by norm_num) (by norm_num)
  · refine quantile34_le (K := D.length) ?_ ?_ h3
    · rw [List.countP_map, List.countP_eq_length_filter, ← List.length_map (f := Prod.fst)]
      have hsub : ((ds.filter ((fun x => decide (m < x)) ∘ fun y => |y.2|)).map Prod.fst) ⊆ D := by
        intro i hi
        obtain ⟨⟨i', d⟩, hy, rfl⟩ := List.mem_map.mp hi
        obtain ⟨hy1, hy2⟩ := List.mem_filter.mp hy
        have hb := step_bounds hs hsp hr hJ hm ((hmem _ _).mp hy1)
        by_contra hcon
        have h2 := hb.2.1 hcon
        simp only [Function.comp_apply, decide_eq_true_eq] at hy2
        rw [abs_of_nonpos h2] at hy2
        linarith [hb.1]
      have hnd' : ((ds.filter ((fun x => decide (m < x)) ∘ fun y => |y.2|)).map Prod.fst).Nodup :=
        hnd.sublist ((List.filter_sublist).map _)
      exact (List.subperm_of_subset hnd' hsub).length_le
    · rw [List.length_map, ← List.length_map (f := Prod.fst)]
      have hsub : List.range' (h + 1) (n - (2 * h + 1)) ⊆ ds.map Prod.fst := by
        intro i hi
        rw [List.mem_range'_1] at hi
        obtain ⟨a, ha⟩ := around_median_exists u h i
        obtain ⟨b, hb⟩ := around_median_exists u h (i - 1)
        exact List.mem_map.mpr ⟨(i, a - b), (hmem _ _).mpr (shiftAt_full.mpr ⟨by omega, by omega, a, b, ha, hb, rfl⟩), rfl⟩
      have hle := (List.subperm_of_subset List.nodup_range' hsub).length_le
      rw [List.length_range'] at hle
      have hn := spaced_length hsp
      have hK : 1 ≤ D.length := List.length_pos_iff.mpr hne
      have e : (D.length + 1) * (2 * h + 1) = D.length * (2 * h + 1) + (2 * h + 1) := by ring
      have hK5 : D.length * 5 ≤ D.length * (2 * h + 1) := Nat.mul_le_mul_left _ (by omega)
      omega

/-- the threshold never exceeds the rise at a cleaning nor drops below zero -/
theorem threshold_bounds {o : DailyOpts} {u : Nat → ℚ} {D : List Nat} {n h : Nat} {m J θ : ℚ}
    (ho : o.dayScale = 2 * h + 1) (hs : SoilsBetween u D n m)
    (hsp : Spaced D n (2 * h + 1)) (hr : Restores u D h J) (hm : 0 ≤ m)
    (hJ : (∃ c, o.cleanThreshold = some c ∧ 0 ≤ c ∧ c ≤ J) ∨
      (o.cleanThreshold = none ∧ 2 ≤ h ∧ 0 ≤ o.outlierFactor ∧ (1 + o.outlierFactor) * m ≤ J))
    (hθ : CleanThreshold o ((List.range n).map fun i => some (u i)) θ) : 0 ≤ θ ∧ (D ≠ [] → θ ≤ J) := by
  unfold CleanThreshold at hθ
  rcases hJ with ⟨c, hc, h0, h1⟩ | ⟨hc, hh, hk, hJ⟩
  · rw [hc] at hθ
    simp only at hθ
    exact ⟨by linarith, fun _ => by linarith⟩
  · rw [hc, ho] at hθ
    simp only at hθ
    obtain ⟨l, q1, q3, hl, h1, h3, rfl⟩ := hθ
    rw [isQuantile_iff (by norm_num) (by norm_num)] at h1 h3
    have hJ0 : 0 ≤ J := le_trans (by positivity) hJ
    obtain ⟨b1, b2, b3⟩ := inferred_bounds hs hsp hr hJ0 hm hh hl h1 h3
    have hp : 0 ≤ o.outlierFactor * (q3 - q1) := mul_nonneg hk (by linarith)
    refine ⟨by linarith, fun hne => ?_⟩
    have := b3 hne
    have hp2 : o.outlierFactor * (q3 - q1) ≤ o.outlierFactor * m := mul_le_mul_of_nonneg_left (by linarith) hk
    linarith

/-- detection is exact -/
theorem detected_full {o : DailyOpts} {u : Nat → ℚ} {D : List Nat} {n h : Nat} {m J : ℚ}
    (ho : o.dayScale = 2 * h + 1) (hs : SoilsBetween u D n m)
    (hsp : Spaced D n (2 * h + 1)) (hr : Restores u D h J) (hm : 0 ≤ m)
    (hJ : (∃ c, o.cleanThreshold = some c ∧ 0 ≤ c ∧ c ≤ J) ∨
      (o.cleanThreshold = none ∧ 2 ≤ h ∧ 0 ≤ o.outlierFactor ∧ (1 + o.outlierFactor) * m ≤ J)) (i : Nat) :
    ShiftDetected o ((List.range n).map fun i => some (u i)) i ↔ i ∈ D := by
  have hJ0 : 0 ≤ J := by
    rcases hJ with ⟨c, -, h0, h1⟩ | ⟨-, -, hk, hJ⟩
    · linarith
    · exact le_trans (by positivity) hJ
  constructor
  · rintro ⟨d, θ, hd, hθ, hlt⟩
    have := (threshold_bounds ho hs hsp hr hm hJ hθ).1
    rw [ho] at hd
    by_contra hi
    have := (step_bounds hs hsp hr hJ0 hm hd).2.1 hi
    linarith
  · intro hi
    obtain ⟨b1, b2⟩ := spaced_bounds hsp hi
    obtain ⟨a, ha⟩ := around_median_exists u h i
    obtain ⟨b, hb⟩ := around_median_exists u h (i - 1)
    have hd : ShiftAt (2 * h + 1) ((List.range n).map fun i => some (u i)) i (a - b) :=
      shiftAt_full.mpr ⟨by omega, by omega, a, b, ha, hb, rfl⟩
    have hgt := (step_bounds hs hsp hr hJ0 hm hd).2.2 hi
    have hex : ∃ θ, CleanThreshold o ((List.range n).map fun i => some (u i)) θ := by
      unfold CleanThreshold
      cases o.cleanThreshold with
      | some c => exact ⟨c, rfl⟩
      | none =>
        simp only
        have hne : (valids (srrDelta o.dayScale ((List.range n).map fun i => some (u i)))).map abs ≠ [] := by
          have := stepSizes_self o.dayScale ((List.range n).map fun i => some (u i))
          obtain ⟨ds, -, hmem, e⟩ := this
          rw [e]
          intro hnil
          rw [List.map_eq_nil_iff] at hnil
          have := (hmem i (a - b)).mpr (by rw [ho]; exact hd)
          rw [hnil] at this
          simp at this
        obtain ⟨q1, h1⟩ := Option.isSome_iff_exists.mp (quantile_isSome (q := 1 / 4) |>.mpr hne)
        obtain ⟨q3, h3⟩ := Option.isSome_iff_exists.mp (quantile_isSome (q := 3 / 4) |>.mpr hne)
        exact ⟨_, _, q1, q3, stepSizes_self _ _, (isQuantile_iff (by norm_num) (by norm_num)).mpr h1,
          (isQuantile_iff (by norm_num) (by norm_num)).mpr h3, rfl⟩
    obtain ⟨θ, hθ⟩ := hex
    have := (threshold_bounds ho hs hsp hr hm hJ hθ).2 (by rintro rfl; simp at hi)
    exact ⟨a - b, θ, by rw [ho]; exact hd, hθ, by linarith⟩

end Verif
