import Verif.Props.YearOnYear

/-! # C111: year-on-year degradation tolerates noise and outliers (rdtools/degradation.py)

How far the reported rate can be from the slope of a line when the data only follow the line
approximately, and when some of the year-on-year values are arbitrary. -/

namespace Verif
open Spec

variable {inferFreq : List Int → Option Int} {recenter : Bool} {exceed conf : ℚ}
  {method : Uncertainty} {block : Nat} {choose : List ℚ → List (List ℚ)} {draws : List (List Nat)}
  {s : Series} {r : YoYResult}

/-- One year-on-year value of noisy data. -/
theorem noisy_value {a b ε k e f t u t0 D : ℚ} (hD : 0 < D) (hk : k ≠ 0) (htu : u + D ≤ t)
    (he : |e - (a + b * ((t - t0) / D))| ≤ ε) (hf : |f - (a + b * ((u - t0) / D))| ≤ ε) :
    |100 * (e / k - f / k) / ((t - u) / D) - 100 * b / k| ≤ 200 * ε / |k| := by
  have htu' : 0 < t - u := by linarith
  have hk' : 0 < |k| := abs_pos.mpr hk
  have hy : 1 ≤ (t - u) / D := by rw [le_div_iff₀ hD]; linarith
  have hε : 0 ≤ ε := le_trans (abs_nonneg _) he
  have e1 : 100 * (e / k - f / k) / ((t - u) / D) - 100 * b / k =
      100 * ((e - (a + b * ((t - t0) / D))) - (f - (a + b * ((u - t0) / D)))) / k / ((t - u) / D) := by
    have : t - u ≠ 0 := htu'.ne'
    field_simp
    ring
  rw [e1, abs_div, abs_div, abs_mul, abs_of_pos (by linarith : 0 < (t - u) / D)]
  rw [abs_of_pos (by norm_num : (0 : ℚ) < 100)]
  have h2 : |(e - (a + b * ((t - t0) / D))) - (f - (a + b * ((u - t0) / D)))| ≤ 2 * ε := by
    refine le_trans (abs_sub _ _) ?_
    linarith
  have h3 : 100 * |(e - (a + b * ((t - t0) / D))) - (f - (a + b * ((u - t0) / D)))| / |k| ≤
      200 * ε / |k| := by
    apply div_le_div_of_nonneg_right _ hk'.le
    linarith
  refine le_trans (div_le_self ?_ hy) h3
  positivity

/-- **C111 (noise).** If every present value is within `ε` of a straight line of slope `b` per 365 days,
every year-on-year value and the reported rate are within `200·ε/k` of the slope in percent of the
reference level `k`, whatever the gaps, the calendar and the sampling. -/
theorem C111_noise
    (h : yoy inferFreq recenter exceed conf method block choose draws s = .ok r)
    (hd : (s.map Prod.fst).Nodup) (a b ε : ℚ) (t0 : Int)
    (hlin : ∀ t e, (t, some e) ∈ s → |e - (a + b * (((t : ℚ) - t0) / (365 * dayNs)))| ≤ ε) :
    ∃ k, r.renorm = some k ∧ k ≠ 0 ∧ |r.rd - 100 * b / k| ≤ 200 * ε / |k| ∧
      ∀ p ∈ r.values, |p.2 - 100 * b / k| ≤ 200 * ε / |k| := by
  have hD : (0 : ℚ) < 365 * dayNs := by have : (0 : ℚ) < dayNs := by exact_mod_cast dayNs_pos
                                        linarith
  have hval : ∀ p ∈ r.values, ∃ k, r.renorm = some k ∧ k ≠ 0 ∧
      |p.2 - 100 * b / k| ≤ 200 * ε / |k| := by
    rintro ⟨t, v⟩ hp
    obtain ⟨e, f, u, k, hk, hk0, he, hf, hl, rfl⟩ := (C21_pairs h hd t v).mp hp
    refine ⟨k, hk, hk0, noisy_value hD hk0 ?_ (hlin t e he) (hlin u f hf)⟩
    have := (C21_partner_unique hl hl).2.1
    exact_mod_cast this
  have hm := isMedian_iff.mp (C22_median h)
  have hne : r.values.map Prod.snd ≠ [] := by rw [← median_isSome, hm]; rfl
  obtain ⟨p, hp⟩ := List.exists_mem_of_ne_nil _ hne
  obtain ⟨p, hp, -⟩ := List.mem_map.mp hp
  obtain ⟨k, hk, hk0, -⟩ := hval p hp
  have hall : ∀ p ∈ r.values, |p.2 - 100 * b / k| ≤ 200 * ε / |k| := by
    intro p hp
    obtain ⟨k', hk', -, h'⟩ := hval p hp
    rw [hk] at hk'
    cases hk'
    exact h'
  refine ⟨k, hk, hk0, ?_, hall⟩
  obtain ⟨h1, h2⟩ := C22_rate_bracketed h (lo := 100 * b / k - 200 * ε / |k|)
    (hi := 100 * b / k + 200 * ε / |k|) (fun p hp => by
      have := abs_le.mp (hall p hp)
      exact ⟨by linarith [this.1], by linarith [this.2]⟩)
  rw [abs_le]
  exact ⟨by linarith, by linarith⟩

/-- Sorted lists: a majority in `[lo, hi]` puts the middle there. -/
theorem median_majority {l : List ℚ} {m lo hi : ℚ} (hm : IsMedian l m)
    (hmaj : l.length < 2 * l.countP fun x => decide (lo ≤ x ∧ x ≤ hi)) : lo ≤ m ∧ m ≤ hi := by
  obtain ⟨l', hp, hs, hne, rfl⟩ := hm
  rw [← hp.length_eq, ← hp.countP_eq] at hmaj
  have hn : 0 < l'.length := List.length_pos_iff.mpr hne
  have hi1 : (l'.length - 1) / 2 < l'.length := by omega
  have hi2 : l'.length / 2 < l'.length := by omega
  rw [List.getD_eq_getElem?_getD, List.getElem?_eq_getElem hi1, Option.getD_some,
    List.getD_eq_getElem?_getD, List.getElem?_eq_getElem hi2, Option.getD_some]
  have mono : ∀ i j (h1 : i < l'.length) (h2 : j < l'.length), i ≤ j → l'[i] ≤ l'[j] := by
    intro i j h1 h2 hij
    rcases Nat.lt_or_eq_of_le hij with hlt | rfl
    · exact List.pairwise_iff_getElem.mp hs i j h1 h2 hlt
    · exact le_refl _
  have split : ∀ n, l'.countP (fun x => decide (lo ≤ x ∧ x ≤ hi)) =
      (l'.take n).countP (fun x => decide (lo ≤ x ∧ x ≤ hi)) +
      (l'.drop n).countP (fun x => decide (lo ≤ x ∧ x ≤ hi)) := by
    intro n
    rw [← List.countP_append, List.take_append_drop]
  have hmid := mono _ _ hi1 hi2 (by omega)
  constructor
  · by_contra hlt
    rw [not_le] at hlt
    have hx : l'[(l'.length - 1) / 2] < lo := by linarith
    have h0 : (l'.take ((l'.length - 1) / 2 + 1)).countP (fun x => decide (lo ≤ x ∧ x ≤ hi)) = 0 := by
      rw [List.countP_eq_zero]
      intro x hx'
      obtain ⟨i, hi', rfl⟩ := List.getElem_of_mem hx'
      rw [List.getElem_take]
      have : i < (l'.length - 1) / 2 + 1 := by rw [List.length_take] at hi'; omega
      have := mono i ((l'.length - 1) / 2) (by omega) hi1 (by omega)
      simp only [decide_eq_true_eq, not_and]
      intro; linarith
    have h1 : (l'.drop ((l'.length - 1) / 2 + 1)).countP (fun x => decide (lo ≤ x ∧ x ≤ hi)) ≤
        l'.length - ((l'.length - 1) / 2 + 1) := by
      refine le_trans List.countP_le_length ?_
      rw [List.length_drop]
    have := split ((l'.length - 1) / 2 + 1)
    omega
  · by_contra hlt
    rw [not_le] at hlt
    have hx : hi < l'[l'.length / 2] := by linarith
    have h0 : (l'.drop (l'.length / 2)).countP (fun x => decide (lo ≤ x ∧ x ≤ hi)) = 0 := by
      rw [List.countP_eq_zero]
      intro x hx'
      obtain ⟨i, hi', rfl⟩ := List.getElem_of_mem hx'
      rw [List.getElem_drop]
      have h3 : l'.length / 2 + i < l'.length := by rw [List.length_drop] at hi'; omega
      have := mono (l'.length / 2) (l'.length / 2 + i) hi2 h3 (by omega)
      simp only [decide_eq_true_eq, not_and, not_le]
      intro; linarith
    have h1 : (l'.take (l'.length / 2)).countP (fun x => decide (lo ≤ x ∧ x ≤ hi)) ≤ l'.length / 2 := by
      refine le_trans List.countP_le_length ?_
      rw [List.length_take]; omega
    have := split (l'.length / 2)
    omega

/-- **C111 (outliers).** If more than half of the year-on-year values lie in a range, the reported rate
lies in it, whatever the other values are. -/
theorem C111_outliers
    (h : yoy inferFreq recenter exceed conf method block choose draws s = .ok r) {lo hi : ℚ}
    (hmaj : r.values.length < 2 * r.values.countP fun p => decide (lo ≤ p.2 ∧ p.2 ≤ hi)) :
    lo ≤ r.rd ∧ r.rd ≤ hi := by
  refine median_majority (C22_median h) ?_
  rw [List.length_map, List.countP_map]
  exact hmaj

/-- **C111 (noise, interval).** Under the hypothesis of `C111_noise` the bounds of the bootstrapped
interval and the exceedance level are as close to the slope as the rate. -/
theorem C111_noise_interval
    (h : yoy inferFreq recenter exceed conf .simple block choose draws s = .ok r)
    (hd : (s.map Prod.fst).Nodup) (a b ε : ℚ) (t0 : Int)
    (hlin : ∀ t e, (t, some e) ∈ s → |e - (a + b * (((t : ℚ) - t0) / (365 * dayNs)))| ≤ ε)
    (hch : ∀ l ∈ choose (r.values.map Prod.snd), ∀ x ∈ l, x ∈ r.values.map Prod.snd)
    (hconf : 0 ≤ conf) :
    ∃ k lo hi e, r.renorm = some k ∧ r.ci = some (lo, hi) ∧ r.exceedance = some e ∧
      |lo - 100 * b / k| ≤ 200 * ε / |k| ∧ |hi - 100 * b / k| ≤ 200 * ε / |k| ∧
      |e - 100 * b / k| ≤ 200 * ε / |k| := by
  obtain ⟨k, hk, hk0, -, hv⟩ := C111_noise h hd a b ε t0 hlin
  obtain ⟨lo, hi, e, h1, h2, -, h3⟩ := C22_interval_bracketed h hch hconf
  obtain ⟨⟨p1, p2⟩, ⟨p3, p4⟩, p5, p6⟩ := h3 (100 * b / k - 200 * ε / |k|)
    (100 * b / k + 200 * ε / |k|) (fun p hp => by
      have := abs_le.mp (hv p hp)
      exact ⟨by linarith [this.1], by linarith [this.2]⟩)
  refine ⟨k, lo, hi, e, hk, h1, h2, ?_, ?_, ?_⟩ <;> rw [abs_le] <;> constructor <;> linarith

/-- The five samples of `exampleYoY` are within 2 of the line falling 1.5 per 365 days from 100.5. -/
example : ∃ r k, yoy noFreq true 95 68 .simple 30 (fun l => [l, l]) [] exampleYoY = .ok r ∧
    r.renorm = some k ∧ |r.rd - 100 * (-3 / 2) / k| ≤ 200 * 2 / |k| := by
  have hs : (yoy noFreq true 95 68 .simple 30 (fun l => [l, l]) [] exampleYoY).toOption.isSome = true := by
    decide +kernel
  cases h : yoy noFreq true 95 68 .simple 30 (fun l => [l, l]) [] exampleYoY with
  | error e => rw [h] at hs; cases hs
  | ok r =>
    obtain ⟨k, hk, -, h1, -⟩ := C111_noise h (by decide +kernel) (201 / 2) (-3 / 2) 2 (17955 * dayNs)
      (by
        intro t e hte
        simp only [exampleYoY, List.mem_cons, List.not_mem_nil, or_false, Prod.mk.injEq,
          Option.some.injEq] at hte
        have hd : (dayNs : ℚ) ≠ 0 := by norm_num [dayNs]
        rcases hte with ⟨rfl, rfl⟩ | ⟨rfl, rfl⟩ | ⟨rfl, rfl⟩ | ⟨rfl, rfl⟩ | ⟨rfl, rfl⟩ <;>
        · norm_num [dayNs, abs_le])
    exact ⟨r, k, rfl, hk, h1⟩

/-- Three of the four year-on-year values of the example (percent of 1, not recentred) lie between -401 and
-99, the fourth is +100. -/
example : ∃ r, yoy noFreq false 95 68 .none 30 (fun _ => []) [] exampleYoY = .ok r ∧
    r.values.length < 2 * r.values.countP fun p => decide (-401 ≤ p.2 ∧ p.2 ≤ -99) := by
  have hs : ((yoy noFreq false 95 68 .none 30 (fun _ => []) [] exampleYoY).toOption.elim false fun r =>
    decide (r.values.length < 2 * r.values.countP fun p => decide (-401 ≤ p.2 ∧ p.2 ≤ -99))) = true := by
    decide +kernel
  cases h : yoy noFreq false 95 68 .none 30 (fun _ => []) [] exampleYoY with
  | error e => rw [h] at hs; cases hs
  | ok r => rw [h] at hs; exact ⟨r, rfl, of_decide_eq_true hs⟩

end Verif
