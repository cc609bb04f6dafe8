import Verif.Lemmas.Degradation
import Verif.Lemmas.Percentile
import Verif.Props.Utilities

/-! # Properties C20-C25 (year-on-year degradation) -/

namespace Verif
open Spec

variable {inferFreq : List Int → Option Int} {recenter : Bool} {exceed conf : ℚ}
  {method : Uncertainty} {block : Nat} {choose : List ℚ → List (List ℚ)} {draws : List (List Nat)}
  {s : Series} {r : YoYResult}

/-- A three-year example: four samples a year apart, the third one missing its partner's value. -/
def exampleYoY : Series :=
  [(17955 * dayNs, some 100), (18321 * dayNs, some 99), (18320 * dayNs, some 101),
   (18686 * dayNs, some 97), (19051 * dayNs, some 96)]

/-- frequency inference that finds nothing -/
def noFreq : List Int → Option Int := fun _ => none

/-! ## C20 -/

/-- **C20.** The complete result (rate, interval, exceedance, year-on-year values, usage) is the same
for every arrangement of the input rows, as long as no timestamp occurs twice. -/
theorem C20_order_independent {s s' : Series} (hp : s.Perm s') (hd : (s.map Prod.fst).Nodup) :
    yoy inferFreq recenter exceed conf method block choose draws s =
      yoy inferFreq recenter exceed conf method block choose draws s' := by
  unfold yoy yoyCore
  rw [sortIndex_eq_of_perm hp hd]

example : exampleYoY.Perm exampleYoY.reverse ∧ (exampleYoY.map Prod.fst).Nodup ∧
    (yoy noFreq true 95 68 .simple 30 (fun l => [l, l]) [] exampleYoY).toOption.isSome = true :=
  ⟨(List.reverse_perm _).symm, by decide +kernel, by decide +kernel⟩

/-! ## C21 -/

/-- **C21.** A year-on-year value is reported at `t` exactly when there is a sample at `t`, the sample
`u` whose anniversary is the latest one within the 8 days up to `t`, and both are present; the value is
the difference of the recentred energies in percent per 365 days. -/
theorem C21_pairs (h : yoy inferFreq recenter exceed conf method block choose draws s = .ok r)
    (hd : (s.map Prod.fst).Nodup) (t : Int) (v : ℚ) :
    (t, v) ∈ r.values ↔
      ∃ e f u k, r.renorm = some k ∧ k ≠ 0 ∧ (t, some e) ∈ s ∧ (u, some f) ∈ s ∧
        LatestAnniversary (s.map Prod.fst) t u ∧
        v = 100 * (e / k - f / k) / (((t : ℚ) - u) / (365 * dayNs)) := by
  obtain ⟨c, hc, -, hrn, -, hv⟩ := yoy_ok h
  obtain ⟨-, hs, ht, -, -⟩ := yoyCore_ok hc
  have hkeys : c.sorted.map Prod.fst = (sortIndex s).map Prod.fst := by rw [hs, renormalize_keys]
  have hstrict : StrictSorted (c.sorted.map Prod.fst) := by rw [hkeys]; exact sortIndex_strict hd
  have hla : ∀ t u, LatestAnniversary (c.sorted.map Prod.fst) t u ↔
      LatestAnniversary (s.map Prod.fst) t u := by
    intro t u
    have hm : ∀ w, w ∈ c.sorted.map Prod.fst ↔ w ∈ s.map Prod.fst := by
      intro w; rw [hkeys]; exact ((sortIndex_perm s).map _).mem_iff
    constructor
    · rintro ⟨h1, h2, h3, h4⟩
      exact ⟨(hm _).mp h1, h2, h3, fun w hw => h4 w ((hm _).mpr hw)⟩
    · rintro ⟨h1, h2, h3, h4⟩
      exact ⟨(hm _).mpr h1, h2, h3, fun w hw => h4 w ((hm _).mp hw)⟩
  have hmem : ∀ t a, (t, some a) ∈ c.sorted ↔
      ∃ e k, (t, some e) ∈ s ∧ r.renorm = some k ∧ k ≠ 0 ∧ a = e / k := by
    intro t a
    rw [hs, mem_renormalize, hrn]
    simp only [(sortIndex_perm s).mem_iff]
  have h1 : (t, v) ∈ r.values ↔ ∃ o, (⟨t, o, some v⟩ : YoYRow) ∈ c.table := by
    rw [hv, List.mem_filterMap]
    constructor
    · rintro ⟨⟨dt, o, y⟩, hx, hxv⟩
      obtain ⟨w, hw, he⟩ := Option.map_eq_some_iff.mp hxv
      simp only [Prod.mk.injEq] at he hw
      obtain ⟨rfl, rfl⟩ := he
      subst hw
      exact ⟨o, hx⟩
    · rintro ⟨o, hx⟩
      exact ⟨_, hx, rfl⟩
  rw [h1, ht]
  simp only [mem_yoyTable hstrict, hla, hmem]
  constructor
  · rintro ⟨o, u, a, b, rfl, ⟨e, k, he, hk, hk0, rfl⟩, ⟨f, k', hf, hk', -, rfl⟩, hl, rfl⟩
    rw [hk, Option.some.injEq] at hk'
    subst hk'
    exact ⟨e, f, u, k, hk, hk0, he, hf, hl, rfl⟩
  · rintro ⟨e, f, u, k, hk, hk0, he, hf, hl, rfl⟩
    exact ⟨some u, u, e / k, f / k, rfl, ⟨e, k, he, hk, hk0, rfl⟩, ⟨f, k, hf, hk, hk0, rfl⟩, hl, rfl⟩

/-- **C21 (uniqueness).** The comparison partner is unique, lies 365 to 374 days in the past and so
the divisor is never zero. -/
theorem C21_partner_unique {ts : List Int} {t u u' : Int} (h : LatestAnniversary ts t u)
    (h' : LatestAnniversary ts t u') :
    u = u' ∧ u + 365 * dayNs ≤ t ∧ t ≤ u + 374 * dayNs := by
  refine ⟨?_, ?_, ?_⟩
  · have a := h.latest u' h'.mem h'.notAfter
    have b := h'.latest u h.mem h.notAfter
    rcases a with a | ⟨a, a'⟩ <;> rcases b with b | ⟨b, b'⟩ <;> omega
  · have := h.notAfter
    have := dayNs_pos
    rcases addYears_one u with e | e <;> linarith
  · have := h.within
    have := dayNs_pos
    rcases addYears_one u with e | e <;> linarith

example : (yoy noFreq false 95 68 .none 30 (fun _ => []) [] exampleYoY).toOption.map (·.values) =
    some [(18320 * dayNs, 100), (18321 * dayNs, -36500/366), (18686 * dayNs, -200),
      (19051 * dayNs, -100)] := by decide +kernel

/-! ## C22 -/

/-- **C22 (median).** The rate is the median of the year-on-year values. -/
theorem C22_median (h : yoy inferFreq recenter exceed conf method block choose draws s = .ok r) :
    IsMedian (r.values.map Prod.snd) r.rd := by
  obtain ⟨c, hc, hrd, -, -, hv⟩ := yoy_ok h
  obtain ⟨-, -, -, hr, hm⟩ := yoyCore_ok hc
  rw [isMedian_iff, hv, values_snd, ← hr, hrd, hm]

/-- **C22 (rate).** The rate lies within the year-on-year values. -/
theorem C22_rate_bracketed
    (h : yoy inferFreq recenter exceed conf method block choose draws s = .ok r) {lo hi : ℚ}
    (hb : ∀ p ∈ r.values, lo ≤ p.2 ∧ p.2 ≤ hi) : lo ≤ r.rd ∧ r.rd ≤ hi := by
  have hm := isMedian_iff.mp (C22_median h)
  have hb' : ∀ x ∈ r.values.map Prod.snd, lo ≤ x ∧ x ≤ hi := by
    intro x hx
    obtain ⟨p, hp, rfl⟩ := List.mem_map.mp hx
    exact hb p hp
  exact ⟨median_ge hm fun x hx => (hb' x hx).1, median_le hm fun x hx => (hb' x hx).2⟩

theorem yoy_simple_ok (h : yoy inferFreq recenter exceed conf .simple block choose draws s = .ok r) :
    ∃ ci, confidenceInterval ((choose (r.values.map Prod.snd)).filterMap median) exceed conf = .ok ci ∧
      r.ci = some ci.1 ∧ r.exceedance = some ci.2 := by
  obtain ⟨c, hc, -, -, -, hv⟩ := yoy_ok h
  obtain ⟨-, -, -, hr, -⟩ := yoyCore_ok hc
  rw [hv, values_snd, ← hr]
  unfold yoy at h
  rw [hc] at h
  simp only [Except.bind] at h
  cases hci : confidenceInterval ((choose c.rates).filterMap median) exceed conf with
  | error e => rw [hci] at h; exact absurd h (by simp)
  | ok ci =>
    rw [hci] at h
    simp only [Except.ok.injEq] at h
    subst h
    exact ⟨ci, rfl, rfl, rfl⟩

/-- **C22 (interval, simple bootstrap).** When every bootstrap sample is drawn from the year-on-year
values, both confidence bounds and the exceedance level lie within those values, and the bounds are
ordered. -/
theorem C22_interval_bracketed
    (h : yoy inferFreq recenter exceed conf .simple block choose draws s = .ok r)
    (hch : ∀ l ∈ choose (r.values.map Prod.snd), ∀ x ∈ l, x ∈ r.values.map Prod.snd)
    (hconf : 0 ≤ conf) :
    ∃ lo hi e, r.ci = some (lo, hi) ∧ r.exceedance = some e ∧ lo ≤ hi ∧
      ∀ a b, (∀ p ∈ r.values, a ≤ p.2 ∧ p.2 ≤ b) →
        (a ≤ lo ∧ lo ≤ b) ∧ (a ≤ hi ∧ hi ≤ b) ∧ (a ≤ e ∧ e ≤ b) := by
  obtain ⟨ci, hci, h1, h2⟩ := yoy_simple_ok h
  obtain ⟨p1, p2, p3⟩ := confidenceInterval_ok hci
  refine ⟨ci.1.1, ci.1.2, ci.2, h1, h2, percentileE_mono p1 p2 (by linarith), fun a b hab => ?_⟩
  have hmb : ∀ x ∈ (choose (r.values.map Prod.snd)).filterMap median, a ≤ x ∧ x ≤ b := by
    intro x hx
    obtain ⟨l, hl, hmx⟩ := List.mem_filterMap.mp hx
    have hl' : ∀ y ∈ l, a ≤ y ∧ y ≤ b := by
      intro y hy
      obtain ⟨p, hp, rfl⟩ := List.mem_map.mp (hch l hl y hy)
      exact hab p hp
    exact ⟨median_ge hmx fun y hy => (hl' y hy).1, median_le hmx fun y hy => (hl' y hy).2⟩
  exact ⟨⟨percentileE_ge p1 fun x hx => (hmb x hx).1, percentileE_le p1 fun x hx => (hmb x hx).2⟩,
    ⟨percentileE_ge p2 fun x hx => (hmb x hx).1, percentileE_le p2 fun x hx => (hmb x hx).2⟩,
    ⟨percentileE_ge p3 fun x hx => (hmb x hx).1, percentileE_le p3 fun x hx => (hmb x hx).2⟩⟩

/-- **C22 (interval, circular block bootstrap).** The bounds are ordered. -/
theorem C22_circular_ordered
    (h : yoy inferFreq recenter exceed conf .circularBlock block choose draws s = .ok r)
    (hconf : 0 ≤ conf) : ∃ lo hi, r.ci = some (lo, hi) ∧ lo ≤ hi := by
  unfold yoy at h
  cases hc : yoyCore inferFreq recenter (if Uncertainty.circularBlock = .circularBlock
      then some (block : ℚ) else none) s with
  | error e => rw [hc] at h; exact absurd h (by simp [Except.bind])
  | ok c =>
    rw [hc] at h
    simp only [Except.bind] at h
    split at h
    · exact absurd h (by simp)
    · split at h
      · exact absurd h (by simp)
      · split at h
        · exact absurd h (by simp)
        · rename_i ci hci
          simp only [Except.ok.injEq] at h
          subst h
          obtain ⟨p1, p2, -⟩ := confidenceInterval_ok hci
          exact ⟨_, _, rfl, percentileE_mono p1 p2 (by linarith)⟩

/-- **C22 (OLS and classical decomposition).** The Monte Carlo interval is ordered and lies within the
sampled rates. -/
theorem C22_degradation_ci {samples : List (ℚ × ℚ)} {lo hi : ℚ}
    (h : degradationCI samples conf = .ok (lo, hi)) (hconf : 0 ≤ conf) :
    lo ≤ hi ∧ ∀ a b, (∀ p ∈ samples, a ≤ 100 * p.2 / p.1 ∧ 100 * p.2 / p.1 ≤ b) →
      a ≤ lo ∧ hi ≤ b := by
  unfold degradationCI at h
  simp only at h
  cases h1 : percentileE (samples.map fun p => p.2 / p.1) (50 - conf / 2) with
  | error e => rw [h1] at h; exact absurd h (by simp [Except.bind])
  | ok x =>
    cases h2 : percentileE (samples.map fun p => p.2 / p.1) (50 + conf / 2) with
    | error e => rw [h1, h2] at h; exact absurd h (by simp [Except.bind])
    | ok y =>
      rw [h1, h2] at h
      simp only [Except.bind, Except.ok.injEq, Prod.mk.injEq] at h
      obtain ⟨rfl, rfl⟩ := h
      refine ⟨by linarith [percentileE_mono h1 h2 (by linarith)], fun a b hab => ?_⟩
      have hx : ∀ z ∈ samples.map fun p => p.2 / p.1, a / 100 ≤ z ∧ z ≤ b / 100 := by
        intro z hz
        obtain ⟨p, hp, rfl⟩ := List.mem_map.mp hz
        have e : 100 * p.2 / p.1 = p.2 / p.1 * 100 := by ring
        have := hab p hp
        rw [e] at this
        constructor
        · linarith [this.1]
        · linarith [this.2]
      constructor
      · linarith [percentileE_ge h1 fun z hz => (hx z hz).1]
      · linarith [percentileE_le h2 fun z hz => (hx z hz).2]

example : (yoy noFreq false 95 68 .simple 30 (fun l => [l, l.take 2, l.drop 1]) [] exampleYoY).toOption.map
    (fun r => (r.rd, r.ci)) = some (-18275/183, some (-18292/183, -5831/183)) := by decide +kernel

example : degradationCI [(1, -1/100), (2, -1/100), (1, 1/50)] 68 = .ok (-21/25, 6/5) := by
  decide +kernel

/-! ## C23 -/

/-- **C23 (linear data).** If all present energies lie on a line `a + b·(t - t₀)/365 d`, then for any
sampling the year-on-year values and the rate are exactly the slope in percent of the recentering
factor. -/
theorem C23_linear_exact
    (h : yoy inferFreq recenter exceed conf method block choose draws s = .ok r)
    (hd : (s.map Prod.fst).Nodup) (a b : ℚ) (t0 : Int)
    (hlin : ∀ t e, (t, some e) ∈ s → e = a + b * (((t : ℚ) - t0) / (365 * dayNs))) :
    ∃ k, r.renorm = some k ∧ k ≠ 0 ∧ r.rd = 100 * b / k ∧ ∀ p ∈ r.values, p.2 = 100 * b / k := by
  have hm := isMedian_iff.mp (C22_median h)
  have hne : r.values.map Prod.snd ≠ [] := by
    rw [← median_isSome, hm]; rfl
  have hval : ∀ p ∈ r.values, ∃ k, r.renorm = some k ∧ k ≠ 0 ∧ p.2 = 100 * b / k := by
    rintro ⟨t, v⟩ hp
    obtain ⟨e, f, u, k, hk, hk0, he, hf, hl, rfl⟩ := (C21_pairs h hd t v).mp hp
    refine ⟨k, hk, hk0, ?_⟩
    have hlt : (u : ℚ) < t := by
      have := (C21_partner_unique hl hl).2.1
      have := dayNs_pos
      exact_mod_cast (by linarith : u < t)
    have hD : (0 : ℚ) < dayNs := by exact_mod_cast dayNs_pos
    have hne' : (t : ℚ) - u ≠ 0 := by linarith
    rw [hlin t e he, hlin u f hf]
    field_simp
    ring
  obtain ⟨p, hp⟩ := List.exists_mem_of_ne_nil _ hne
  obtain ⟨p, hp, -⟩ := List.mem_map.mp hp
  obtain ⟨k, hk, hk0, -⟩ := hval p hp
  have hall : ∀ p ∈ r.values, p.2 = 100 * b / k := by
    intro p hp
    obtain ⟨k', hk', -, hv⟩ := hval p hp
    rw [hk, Option.some.injEq] at hk'
    subst hk'
    exact hv
  refine ⟨k, hk, hk0, ?_, hall⟩
  apply median_const hm
  intro x hx
  obtain ⟨p, hp, rfl⟩ := List.mem_map.mp hx
  exact hall p hp

/-- **C23 (linear data, not recentred).** Without recentering the rate is `100·b` itself, and the
simple bootstrap interval collapses to it. -/
theorem C23_linear_no_recenter
    (h : yoy inferFreq false exceed conf .simple block choose draws s = .ok r)
    (hd : (s.map Prod.fst).Nodup) (a b : ℚ) (t0 : Int)
    (hlin : ∀ t e, (t, some e) ∈ s → e = a + b * (((t : ℚ) - t0) / (365 * dayNs)))
    (hch : ∀ l ∈ choose (r.values.map Prod.snd), ∀ x ∈ l, x ∈ r.values.map Prod.snd)
    (hconf : 0 ≤ conf) :
    r.rd = 100 * b ∧ r.ci = some (100 * b, 100 * b) ∧ r.exceedance = some (100 * b) := by
  obtain ⟨k, hk, hk0, hrd, hv⟩ := C23_linear_exact h hd a b t0 hlin
  have hk1 : k = 1 := by
    obtain ⟨c, hc, -, hrn, -, -⟩ := yoy_ok h
    obtain ⟨h1, -⟩ := yoyCore_ok hc
    rw [hrn, h1] at hk
    simpa [yoyRenorm] using hk.symm
  subst hk1
  rw [div_one] at hrd hv
  obtain ⟨lo, hi, e, h1, h2, -, h3⟩ := C22_interval_bracketed h hch hconf
  obtain ⟨⟨p1, p2⟩, ⟨p3, p4⟩, p5, p6⟩ := h3 (100 * b) (100 * b)
    (fun p hp => ⟨(hv p hp).ge, (hv p hp).le⟩)
  refine ⟨hrd, ?_, ?_⟩
  · rw [h1, le_antisymm p2 p1, le_antisymm p4 p3]
  · rw [h2, le_antisymm p6 p5]

theorem sortIndex_scale (c : ℚ) (s : Series) : sortIndex (scaleS c s) = scaleS c (sortIndex s) := by
  unfold sortIndex scaleS
  rw [List.map_insertionSort (fun a b : Int × Cell => a.1 ≤ b.1) (fun a b : Int × Cell => a.1 ≤ b.1)]
  intros; rfl

theorem yoyRenorm_scale {c : ℚ} (hc : 0 < c) (s : Series) :
    yoyRenorm true (scaleS c s) = (yoyRenorm true s).map (c * ·) := by
  unfold yoyRenorm
  simp only [if_true]
  cases s with
  | nil => rfl
  | cons p l =>
    have := robustMedian_scale hc
      (((p :: l).filter fun r => decide (p.1 ≤ r.1 ∧ r.1 ≤ p.1 + 364 * dayNs)).map Prod.snd)
      (q := 99/100) (by norm_num) (by norm_num)
    simp only [← this]
    unfold scaleS
    change robustMedian (List.map Prod.snd (List.filter _
      (List.map (fun r : Int × Cell => (r.1, r.2.map (c * ·))) (p :: l)))) _ = _
    rw [List.filter_map, List.map_map, List.map_map]
    rfl

theorem renormalize_scale {c : ℚ} (hc : 0 < c) (s : Series) (k : Cell) :
    renormalize (scaleS c s) (k.map (c * ·)) = renormalize s k := by
  unfold renormalize scaleS
  rw [List.map_map]
  apply List.map_congr_left
  rintro ⟨t, x⟩ _
  simp only [Function.comp_apply, Prod.mk.injEq, true_and]
  cases k with
  | none => cases x <;> simp [cellOp]
  | some k =>
    by_cases hk : k = 0
    · subst hk; cases x <;> simp [cellOp]
    · cases x with
      | none => simp [cellOp]
      | some x =>
        simp only [Option.map_some, Option.some.injEq, mul_eq_zero, hc.ne', hk, or_self, if_false,
          cellOp]
        field_simp

/-- **C23 (units).** With recentering, multiplying all energies by a positive constant changes nothing
but the recentering factor, for every uncertainty method. -/
theorem C23_scale_invariant {c : ℚ} (hc : 0 < c) (s : Series) :
    yoy inferFreq true exceed conf method block choose draws (scaleS c s) =
      (yoy inferFreq true exceed conf method block choose draws s).map
        fun r => { r with renorm := r.renorm.map (c * ·) } := by
  have hcore : ∀ bl, yoyCore inferFreq true bl (scaleS c s) =
      (yoyCore inferFreq true bl s).map fun r => { r with renorm := r.renorm.map (c * ·) } := by
    intro bl
    unfold yoyCore
    simp only [sortIndex_scale, yoyRenorm_scale hc, renormalize_scale hc, fst_scaleS]
    have hlen : (scaleS c (sortIndex s)).length = (sortIndex s).length := by simp [scaleS]
    rw [hlen]
    split_ifs
    all_goals try rfl
    cases median (valids ((yoyTable (renormalize (sortIndex s)
      (yoyRenorm true (sortIndex s)))).map YoYRow.yoy)) <;> rfl
  unfold yoy
  rw [hcore]
  cases yoyCore inferFreq true (if method = .circularBlock then some (block : ℚ) else none) s with
  | error e => rfl
  | ok k =>
    simp only [Except.map, Except.bind]
    cases method with
    | none => rfl
    | simple =>
      simp only
      cases confidenceInterval ((choose k.rates).filterMap median) exceed conf <;> rfl
    | circularBlock =>
      simp only
      split
      · rfl
      · split
        · rfl
        · split <;> rfl

example : (yoy noFreq true 95 68 .simple 30 (fun l => [l]) []
    [(0, some 200), (365 * dayNs, some 198), (730 * dayNs, none), (731 * dayNs, some (200 - 731/365 * 2))]).toOption.map
    (fun r => (r.rd, r.renorm)) = some (-1, some 200) := by decide +kernel

/-! ## C24 -/

theorem filter_unique_length {α : Type} (P q : α → Bool) {l : List α} (hn : l.Nodup)
    (hu : ∀ y ∈ l, P y = true → ∀ z ∈ l, P z = true → y = z) :
    (l.filter fun y => P y && q y).length = (l.find? P).elim 0 fun x => if q x then 1 else 0 := by
  induction l with
  | nil => rfl
  | cons a l ih =>
    rw [List.nodup_cons] at hn
    by_cases ha : P a
    · have h0 : (l.filter fun y => P y && q y) = [] := by
        rw [List.filter_eq_nil_iff]
        intro y hy hyp
        simp only [Bool.and_eq_true] at hyp
        have := hu a (by simp) ha y (by simp [hy]) hyp.1
        exact hn.1 (this ▸ hy)
      rw [List.filter_cons, List.find?_cons_of_pos ha, ha, Bool.true_and]
      cases hq : q a <;> simp [h0, hq]
    · rw [List.find?_cons_of_neg ha, ← ih hn.2 fun y hy hp z hz hz' =>
        hu y (by simp [hy]) hp z (by simp [hz]) hz', List.filter_cons]
      simp [ha]

theorem filter_find_le {α : Type} (P q : α → Bool) (l : List α) :
    ((l.find? P).elim 0 fun x => if q x then 1 else 0) ≤ (l.filter fun y => P y && q y).length := by
  cases h : l.find? P with
  | none => exact Nat.zero_le _
  | some x =>
    simp only [Option.elim]
    split
    · rename_i hq
      apply List.length_pos_of_mem (a := x)
      rw [List.mem_filter, List.find?_some h, hq]
      exact ⟨List.mem_of_find?_eq_some h, rfl⟩
    · exact Nat.zero_le _

theorem table_right {s : Series} (hs : StrictSorted (s.map Prod.fst)) {x : YoYRow}
    (hx : x ∈ yoyTable s) (u : Int) :
    x.right = some u ↔ LatestAnniversary (s.map Prod.fst) x.dt u := by
  obtain ⟨p, hp, rfl⟩ := List.mem_map.mp hx
  cases ha : asofYear s p.1 with
  | none =>
    simp only [reduceCtorEq, false_iff]
    exact (asofYear_eq_none hs).mp ha u
  | some q =>
    obtain ⟨w, y⟩ := q
    simp only [Option.some.injEq]
    obtain ⟨h1, h2⟩ := (asofYear_eq_some hs).mp ha
    constructor
    · rintro rfl; exact h2
    · intro h; exact (C21_partner_unique h2 h).1

/-- **C24 (range).** Every usage count is 0, 1 or 2, and there is one for every sample. -/
theorem C24_range (h : yoy inferFreq recenter exceed conf method block choose draws s = .ok r) :
    (r.usage.map Prod.fst).Perm (s.map Prod.fst) ∧ ∀ p ∈ r.usage, p.2 ≤ 2 := by
  obtain ⟨c, hc, -, -, hu, -⟩ := yoy_ok h
  obtain ⟨-, hs, ht, -, -⟩ := yoyCore_ok hc
  constructor
  · rw [hu, usageOfPoints, List.map_map]
    change (c.table.map YoYRow.dt).Perm _
    rw [ht, yoyTable_dt, hs, renormalize_keys]
    exact (sortIndex_perm s).map _
  · intro p hp
    rw [hu, usageOfPoints] at hp
    obtain ⟨x, -, rfl⟩ := List.mem_map.mp hp
    simp only
    cases c.table.find? fun y => decide (y.right = some x.dt) <;> simp only [Option.elim] <;>
      split_ifs <;> omega

open Classical in
/-- The number of reported year-on-year values the sample at `u` takes part in. -/
noncomputable def Spec.participation (times : List Int) (values : List (Int × ℚ)) (u : Int) : Nat :=
  (values.filter fun p => decide (p.1 = u)).length +
    (values.filter fun p => decide (LatestAnniversary times p.1 u)).length

theorem participation_table {s : Series} {sorted : Series} {tbl : List YoYRow} (u : Int)
    (hkeys : ∀ w, w ∈ sorted.map Prod.fst ↔ w ∈ s.map Prod.fst)
    (hstrict : StrictSorted (sorted.map Prod.fst)) (ht : tbl = yoyTable sorted) :
    Spec.participation (s.map Prod.fst) (tbl.filterMap fun x => x.yoy.map fun v => (x.dt, v)) u =
      (tbl.filter fun x => decide (x.dt = u) && x.yoy.isSome).length +
        (tbl.filter fun x => decide (x.right = some u) && x.yoy.isSome).length := by
  classical
  have hla : ∀ t u, LatestAnniversary (sorted.map Prod.fst) t u ↔
      LatestAnniversary (s.map Prod.fst) t u := by
    intro t u
    constructor
    · rintro ⟨h1, h2, h3, h4⟩
      exact ⟨(hkeys _).mp h1, h2, h3, fun w hw => h4 w ((hkeys _).mpr hw)⟩
    · rintro ⟨h1, h2, h3, h4⟩
      exact ⟨(hkeys _).mpr h1, h2, h3, fun w hw => h4 w ((hkeys _).mp hw)⟩
  have gen : ∀ (Q : Int → Bool) (P : YoYRow → Bool) (l : List YoYRow),
      (∀ x ∈ l, Q x.dt = P x) →
      ((l.filterMap fun x => x.yoy.map fun v => (x.dt, v)).filter fun p => Q p.1).length =
        (l.filter fun x => P x && x.yoy.isSome).length := by
    intro Q P l
    induction l with
    | nil => intro _; rfl
    | cons a l ih =>
      intro hq
      have ih' := ih fun x hx => hq x (by simp [hx])
      have ha := hq a (by simp)
      cases hy : a.yoy with
      | none => simp [hy, ih']
      | some v =>
        simp only [List.filterMap_cons, hy, Option.map_some, List.filter_cons, ha]
        cases P a <;> simp [ih']
  unfold Spec.participation
  congr 1
  · exact gen (fun t => decide (t = u)) (fun x => decide (x.dt = u)) tbl fun x _ => rfl
  · apply gen (fun t => decide (LatestAnniversary (s.map Prod.fst) t u))
      (fun x => decide (x.right = some u)) tbl
    intro x hx
    rw [ht] at hx
    rw [decide_eq_decide, table_right hstrict hx, hla]

theorem usage_of_core {s : Series} {c : YoYCore}
    (hs : c.sorted = renormalize (sortIndex s) c.renorm) (hd : (s.map Prod.fst).Nodup) :
    (∀ w, w ∈ c.sorted.map Prod.fst ↔ w ∈ s.map Prod.fst) ∧
      StrictSorted (c.sorted.map Prod.fst) := by
  have hkeys : c.sorted.map Prod.fst = (sortIndex s).map Prod.fst := by rw [hs, renormalize_keys]
  refine ⟨fun w => ?_, by rw [hkeys]; exact sortIndex_strict hd⟩
  rw [hkeys]; exact ((sortIndex_perm s).map _).mem_iff

theorem yoyTable_inj {s : Series} (hs : StrictSorted (s.map Prod.fst)) :
    (yoyTable s).Nodup ∧ ∀ x ∈ yoyTable s, ∀ y ∈ yoyTable s, x.dt = y.dt → x = y := by
  have : ((yoyTable s).map YoYRow.dt).Nodup := by rw [yoyTable_dt]; exact hs.nodup
  exact ⟨List.Nodup.of_map _ this, fun x hx y hy h => List.inj_on_of_nodup_map this hx hy h⟩

/-- **C24 (never overcounts).** The usage count never exceeds the number of reported values the sample
takes part in. -/
theorem C24_at_most (h : yoy inferFreq recenter exceed conf method block choose draws s = .ok r)
    (hd : (s.map Prod.fst).Nodup) {u : Int} {n : Nat} (hn : (u, n) ∈ r.usage) :
    n ≤ Spec.participation (s.map Prod.fst) r.values u := by
  obtain ⟨c, hc, -, -, hu, hv⟩ := yoy_ok h
  obtain ⟨-, hs, ht, -, -⟩ := yoyCore_ok hc
  obtain ⟨hk, hst⟩ := usage_of_core hs hd
  rw [hv, participation_table u hk hst ht]
  rw [hu, usageOfPoints] at hn
  obtain ⟨x, hx, he⟩ := List.mem_map.mp hn
  simp only [Prod.mk.injEq] at he
  obtain ⟨rfl, rfl⟩ := he
  apply Nat.add_le_add
  · split
    · rename_i hy
      apply List.length_pos_of_mem (a := x)
      rw [List.mem_filter]
      exact ⟨hx, by simp [hy]⟩
    · exact Nat.zero_le _
  · exact filter_find_le (fun y : YoYRow => decide (y.right = some x.dt)) (fun y => y.yoy.isSome) c.table

/-- **C24 (count).** If no sample is the comparison partner of two different samples, the usage count is
the number of reported values the sample takes part in. Missing: samples that are the partner of two
samples are counted once for both (`C24_count_refuted`). -/
theorem C24_count_partial
    (h : yoy inferFreq recenter exceed conf method block choose draws s = .ok r)
    (hd : (s.map Prod.fst).Nodup) {u : Int} {n : Nat} (hn : (u, n) ∈ r.usage)
    (hone : ∀ t ∈ s.map Prod.fst, ∀ t' ∈ s.map Prod.fst, LatestAnniversary (s.map Prod.fst) t u →
      LatestAnniversary (s.map Prod.fst) t' u → t = t') :
    n = Spec.participation (s.map Prod.fst) r.values u := by
  obtain ⟨c, hc, -, -, hu, hv⟩ := yoy_ok h
  obtain ⟨-, hs, ht, -, -⟩ := yoyCore_ok hc
  obtain ⟨hk, hst⟩ := usage_of_core hs hd
  obtain ⟨hnd, hinj⟩ := yoyTable_inj hst
  rw [hv, participation_table u hk hst ht]
  rw [hu, usageOfPoints] at hn
  obtain ⟨x, hx, he⟩ := List.mem_map.mp hn
  simp only [Prod.mk.injEq] at he
  obtain ⟨rfl, rfl⟩ := he
  rw [ht] at hx ⊢
  have hla : ∀ t, LatestAnniversary (c.sorted.map Prod.fst) t x.dt →
      LatestAnniversary (s.map Prod.fst) t x.dt := by
    rintro t ⟨h1, h2, h3, h4⟩
    exact ⟨(hk _).mp h1, h2, h3, fun w hw => h4 w ((hk _).mpr hw)⟩
  have hdt : ∀ y ∈ yoyTable c.sorted, y.dt ∈ s.map Prod.fst := by
    intro y hy
    rw [← hk, ← yoyTable_dt]
    exact List.mem_map_of_mem hy
  rw [filter_unique_length (fun y : YoYRow => decide (y.dt = x.dt)) (fun y => y.yoy.isSome) hnd
      (fun y hy h1 z hz h2 => hinj y hy z hz (by simp at h1 h2; rw [h1, h2])),
    filter_unique_length (fun y : YoYRow => decide (y.right = some x.dt)) (fun y => y.yoy.isSome) hnd
      (fun y hy h1 z hz h2 => hinj y hy z hz (by
        simp only [decide_eq_true_eq] at h1 h2
        exact hone _ (hdt y hy) _ (hdt z hz) (hla _ ((table_right hst hy _).mp h1))
          (hla _ ((table_right hst hz _).mp h2))))]
  congr 1
  cases hf : (yoyTable c.sorted).find? fun y => decide (y.dt = x.dt) with
  | none =>
    have := List.find?_eq_none.mp hf x hx
    simp at this
  | some z =>
    have h1 := List.find?_some hf
    have h2 := List.mem_of_find?_eq_some hf
    simp only [decide_eq_true_eq] at h1
    rw [hinj z h2 x hx h1]
    rfl

/-- **C24 is false in general**: with 28 and 29 February both in the data, the sample one year earlier
is used by both of them but counted once. -/
theorem C24_count_refuted :
    ∃ s r u n, (s.map Prod.fst).Nodup ∧
      yoy noFreq false 95 68 .none 30 (fun _ => []) [] s = .ok r ∧ (u, n) ∈ r.usage ∧
      n < Spec.participation (s.map Prod.fst) r.values u := by
  have hd : (exampleYoY.map Prod.fst).Nodup := by decide +kernel
  cases h : yoy noFreq false 95 68 .none 30 (fun _ => []) [] exampleYoY with
  | error e =>
    have : (yoy noFreq false 95 68 .none 30 (fun _ => []) [] exampleYoY).toOption.isSome = true := by
      decide +kernel
    rw [h] at this; simp [Except.toOption] at this
  | ok r =>
    have h1 : (yoy noFreq false 95 68 .none 30 (fun _ => []) [] exampleYoY).toOption.map
        (fun r => (r.values, r.usage)) = some
        ([(18320 * dayNs, 100), (18321 * dayNs, -36500/366), (18686 * dayNs, -200),
          (19051 * dayNs, -100)], [(17955 * dayNs, 1), (18320 * dayNs, 1), (18321 * dayNs, 2),
          (18686 * dayNs, 2), (19051 * dayNs, 1)]) := by decide +kernel
    rw [h] at h1
    simp only [Except.toOption, Option.map_some, Option.some.injEq, Prod.mk.injEq] at h1
    refine ⟨exampleYoY, r, 17955 * dayNs, 1, hd, h, by rw [h1.2]; simp, ?_⟩
    have la : ∀ t, t = 18320 * dayNs ∨ t = 18321 * dayNs →
        LatestAnniversary (exampleYoY.map Prod.fst) t (17955 * dayNs) := by
      rintro t (rfl | rfl)
      · exact ⟨by decide +kernel, by decide +kernel, by decide +kernel, by decide +kernel⟩
      · exact ⟨by decide +kernel, by decide +kernel, by decide +kernel, by decide +kernel⟩
    classical
    unfold Spec.participation
    rw [h1.1]
    simp only [List.filter_cons]
    rw [if_pos (decide_eq_true (la _ (Or.inl rfl))), if_pos (decide_eq_true (la _ (Or.inr rfl)))]
    simp only [List.length_cons]
    omega

/-! ## C25 -/

theorem valids_gapsFrom (p : Int) (l : List Int) :
    valids ((gapsFrom p l).map Prod.snd) = steps (p :: l) := by
  induction l generalizing p with
  | nil => rfl
  | cons a l ih =>
    have := ih a
    simp only [gapsFrom, List.map_cons, valids, List.filterMap_cons, id, steps, List.tail_cons,
      List.zipWith_cons_cons] at this ⊢
    rw [this]

theorem yoyStep_iff (inferred : Option Int) (ts : List Int) (st : ℚ) :
    yoyStep inferred ts = some st ↔ IndexStep inferred ts st := by
  unfold yoyStep IndexStep
  cases inferred with
  | some f => simp [eq_comm]
  | none =>
    simp only [reduceCtorEq, false_and, exists_false, true_and, false_or]
    rw [isMedian_iff]
    cases ts with
    | nil => simp [gaps, steps, valids]
    | cons a l =>
      simp only [gaps, List.map_cons]
      rw [← valids_gapsFrom]
      rfl

theorem underTwoYears_iff (inferred : Option Int) {ts : List Int} (hs : ts.Pairwise (· ≤ ·)) :
    underTwoYears inferred ts = true ↔ TooShort inferred ts := by
  unfold underTwoYears TooShort
  cases ts with
  | nil => simp
  | cons a l =>
    rw [List.pairwise_cons] at hs
    have hlast : (a :: l).getLastD a ∈ a :: l := by
      rw [List.getLastD_eq_getLast?, List.getLast?_eq_getLast_of_ne_nil (by simp)]
      exact List.getLast_mem _
    have hmax : ∀ x ∈ a :: l, x ≤ (a :: l).getLastD a := by
      have : ∀ (l : List Int) (a : Int), l.Pairwise (· ≤ ·) → (∀ x ∈ l, a ≤ x) →
          ∀ x ∈ a :: l, x ≤ (a :: l).getLastD a := by
        intro l
        induction l with
        | nil => intro a _ _ x hx; simp at hx; simp [hx]
        | cons b l ih =>
          intro a h1 h2 x hx
          rw [List.pairwise_cons] at h1
          have hb := ih b h1.2 h1.1
          rw [List.getLastD_cons, List.getLastD_cons]
          rw [List.getLastD_cons] at hb
          rcases List.mem_cons.mp hx with rfl | hx
          · exact (h2 b (by simp)).trans (hb b (by simp))
          · exact hb x hx
      exact this l a hs.2 hs.1
    have hmin : ∀ x ∈ a :: l, a ≤ x := by
      intro x hx
      rcases List.mem_cons.mp hx with rfl | hx
      · exact le_refl _
      · exact hs.1 x hx
    constructor
    · intro h
      cases hst : yoyStep inferred (a :: l) with
      | none => simp [hst, cellCmp] at h
      | some st =>
        simp only [hst, cellCmp, Option.map_some, decide_eq_true_eq] at h
        exact ⟨a, _, st, by simp, hlast, fun x hx => ⟨hmin x hx, hmax x hx⟩,
          (yoyStep_iff _ _ _).mp hst, h⟩
    · rintro ⟨a', b', st, ha, hb, hab, hst, hlt⟩
      have e1 : a' = a := le_antisymm (hab a (by simp)).1 (hmin a' ha)
      have e2 : b' = (a :: l).getLastD a := le_antisymm (hmax b' hb) (hab _ hlast).2
      subst e1
      rw [e2] at hlt
      simp only [(yoyStep_iff _ _ _).mpr hst, cellCmp, Option.map_some, decide_eq_true_eq]
      exact hlt

theorem quantile_gt {l : List ℚ} {q v m : ℚ} (h : quantile l q = some v) (h0 : 0 ≤ q) (h1 : q ≤ 1)
    (hm : ∀ x ∈ l, m < x) : m < v := by
  obtain ⟨hne, rfl⟩ := quantile_eq_some h
  obtain ⟨_, _, hk3, _⟩ := quantile_index (sortQ_length_pos hne) h0 h1
  exact lt_of_lt_of_le (hm _ (mem_sortQ.mp (getD_mem' hk3)))
    (quantileSorted_between (sortQ_pairwise l) (sortQ_length_pos hne) h0 h1).1

theorem robustMedian_pos {x : List Cell} (hx : Spec.Nonneg x) {v : ℚ} (hv : some v ∈ x) (hpos : 0 < v) :
    ∃ k, robustMedian x = some k ∧ 0 < k := by
  cases hk : robustMedian x with
  | none =>
    exfalso
    have h := (C04_nan_iff (by norm_num) (by norm_num)).mp hk
    simp only [isQuantile_iff (show (0 : ℚ) ≤ 99 / 100 by norm_num) (by norm_num)] at h
    obtain ⟨z, hz, hz1⟩ := h v hv
    have hz0 : 0 ≤ z := by linarith
    have : z ≤ z / 1000 := by
      apply quantile_le hz (by norm_num) (by norm_num)
      intro y hy
      obtain ⟨c, hc, rfl⟩ := List.mem_map.mp hy
      cases c with
      | none => simp; positivity
      | some u =>
        obtain ⟨z', hz', h'⟩ := h u hc
        rw [hz, Option.some.injEq] at hz'
        subst hz'
        simp; linarith
    linarith
  | some k =>
    refine ⟨k, rfl, ?_⟩
    apply quantile_gt hk (by norm_num) (by norm_num)
    intro y hy
    obtain ⟨-, s, hs, hlt⟩ := mem_robustKeep hy
    exact lt_of_le_of_lt (robustSmall_nonneg hx (by norm_num) (by norm_num) hs) hlt

theorem sorted_times (s : Series) : ((sortIndex s).map Prod.fst).Pairwise (· ≤ ·) :=
  List.pairwise_map.mpr (keysort_pairwise _ s)

/-- Data the recentering can work with: no negative energies and a positive one within 364 days of the
first sample. -/
def Spec.Recentrable (s : Series) : Prop :=
  (∀ t e, (t, some e) ∈ s → 0 ≤ e) ∧
    ∃ a t e, a ∈ s.map Prod.fst ∧ (∀ x ∈ s.map Prod.fst, a ≤ x) ∧ (t, some e) ∈ s ∧ 0 < e ∧
      t ≤ a + 364 * dayNs

theorem yoyRenorm_pos {s : Series} (h : recenter = true → Spec.Recentrable s) :
    ∃ k, yoyRenorm recenter (sortIndex s) = some k ∧ k ≠ 0 := by
  unfold yoyRenorm
  cases recenter with
  | false => exact ⟨1, rfl, by norm_num⟩
  | true =>
    obtain ⟨hnn, a, t, e, ha, hmin, he, hpos, hle⟩ := h rfl
    have hsorted := sorted_times s
    have hperm := sortIndex_perm s
    cases hs : sortIndex s with
    | nil =>
      rw [hs] at hperm
      rw [← hperm.nil_eq] at he
      simp at he
    | cons p l =>
      simp only [if_true]
      have hp : p.1 = a := by
        apply le_antisymm
        · rw [hs, List.map_cons, List.pairwise_cons] at hsorted
          have : a ∈ (p :: l).map Prod.fst := by
            rw [← hs]; exact (hperm.map _).mem_iff.mpr ha
          rcases List.mem_cons.mp this with h | h
          · exact h.ge
          · exact hsorted.1 a h
        · apply hmin
          exact (hperm.map _).mem_iff.mp (by rw [hs]; simp)
      have hmem : ∀ q, q ∈ p :: l ↔ q ∈ s := by intro q; rw [← hs]; exact hperm.mem_iff
      obtain ⟨k, hk, hk0⟩ := robustMedian_pos
        (x := ((p :: l).filter fun r => decide (p.1 ≤ r.1 ∧ r.1 ≤ p.1 + 364 * dayNs)).map Prod.snd)
        (v := e) (by
          intro v hv
          obtain ⟨q, hq, hqv⟩ := List.mem_map.mp hv
          have hq' := (hmem q).mp (List.mem_filter.mp hq).1
          exact hnn q.1 v (by rw [← hqv]; exact hq')) (by
          refine List.mem_map.mpr ⟨(t, some e), List.mem_filter.mpr ⟨(hmem _).mpr he, ?_⟩, rfl⟩
          have : a ≤ t := hmin t (List.mem_map.mpr ⟨_, he, rfl⟩)
          simp only [decide_eq_true_eq]
          omega) hpos
      exact ⟨k, hk, hk0.ne'⟩

theorem rates_nonempty {s : Series} (hd : (s.map Prod.fst).Nodup) {k : ℚ} (hk : k ≠ 0) :
    valids ((yoyTable (renormalize (sortIndex s) (some k))).map YoYRow.yoy) ≠ [] ↔ HasPair s := by
  have hst : StrictSorted ((renormalize (sortIndex s) (some k)).map Prod.fst) := by
    rw [renormalize_keys]; exact sortIndex_strict hd
  have hm : ∀ w, w ∈ (renormalize (sortIndex s) (some k)).map Prod.fst ↔ w ∈ s.map Prod.fst := by
    intro w; rw [renormalize_keys]; exact ((sortIndex_perm s).map _).mem_iff
  constructor
  · intro h
    obtain ⟨v, hv⟩ := List.exists_mem_of_ne_nil _ h
    unfold valids at hv
    simp only [List.mem_filterMap, id, exists_eq_right, List.mem_map] at hv
    obtain ⟨⟨t, o, y⟩, hx, rfl⟩ := hv
    obtain ⟨u, a, b, -, h1, h2, h3, -⟩ := (mem_yoyTable hst).mp hx
    obtain ⟨e, -, he, -, -, -⟩ := mem_renormalize.mp h1
    obtain ⟨f, -, hf, -, -, -⟩ := mem_renormalize.mp h2
    exact ⟨t, u, e, f, (sortIndex_perm s).mem_iff.mp he, (sortIndex_perm s).mem_iff.mp hf,
      (hm _).mp h3.mem, h3.notAfter, h3.within, fun w hw => h3.latest w ((hm _).mpr hw)⟩
  · rintro ⟨t, u, e, f, he, hf, hl⟩ hnil
    have hx := (mem_yoyTable hst (t := t) (o := some u)).mpr ⟨u, e / k, f / k, rfl,
      mem_renormalize.mpr ⟨e, k, (sortIndex_perm s).mem_iff.mpr he, rfl, hk, rfl⟩,
      mem_renormalize.mpr ⟨f, k, (sortIndex_perm s).mem_iff.mpr hf, rfl, hk, rfl⟩,
      ⟨(hm _).mpr hl.mem, hl.notAfter, hl.within, fun w hw => hl.latest w ((hm _).mp hw)⟩, rfl⟩
    have : ∀ v, v ∉ valids ((yoyTable (renormalize (sortIndex s) (some k))).map YoYRow.yoy) := by
      rw [hnil]; simp
    apply this
    unfold valids
    simp only [List.mem_filterMap, id, exists_eq_right, List.mem_map]
    exact ⟨_, hx, rfl⟩

/-- The core computation fails exactly on short or pairless data (and on bad block lengths). -/
theorem yoyCore_error_iff {ts : List Int} (hne : s ≠ []) (hd : (s.map Prod.fst).Nodup)
    (hts : ts.Perm (s.map Prod.fst)) (hsort : ts.Pairwise (· ≤ ·))
    (hrec : recenter = true → Spec.Recentrable s) (bl : Option ℚ) :
    (∃ c, yoyCore inferFreq recenter bl s = .ok c) ∧ ¬ TooShort (inferFreq ts) ts ∧ HasPair s ∧
        (∀ x, bl = some x → inferFreq ts ≠ none ∧ x ≤ (s.length : ℚ) / 3) ∨
      yoyCore inferFreq recenter bl s = .error .valueError ∧
        (TooShort (inferFreq ts) ts ∨ ¬ HasPair s ∨
          ∃ x, bl = some x ∧ (inferFreq ts = none ∨ (s.length : ℚ) / 3 < x)) := by
  have e : (sortIndex s).map Prod.fst = ts :=
    List.Perm.eq_of_pairwise (le := (· ≤ ·)) (fun a b _ _ h1 h2 => le_antisymm h1 h2)
      (sorted_times s) hsort (((sortIndex_perm s).map _).trans hts.symm)
  have hlen : (sortIndex s).length = s.length := (sortIndex_perm s).length_eq
  obtain ⟨k, hk, hk0⟩ := yoyRenorm_pos hrec
  have hne' : ts ≠ [] := by
    rintro rfl
    exact hne (List.map_eq_nil_iff.mp (List.nil_perm.mp hts))
  unfold yoyCore
  simp only [e, hlen, if_neg hne', hk]
  by_cases h1 : underTwoYears (inferFreq ts) ts = true
  · rw [if_pos h1]
    exact Or.inr ⟨rfl, Or.inl ((underTwoYears_iff _ hsort).mp h1)⟩
  · rw [if_neg h1]
    have h1' : ¬ TooShort (inferFreq ts) ts := fun h => h1 ((underTwoYears_iff _ hsort).mpr h)
    by_cases h2 : bl.isSome = true ∧ inferFreq ts = none
    · rw [if_pos h2]
      obtain ⟨x, hx⟩ := Option.isSome_iff_exists.mp h2.1
      exact Or.inr ⟨rfl, Or.inr (Or.inr ⟨x, hx, Or.inl h2.2⟩)⟩
    · rw [if_neg h2]
      by_cases h3 : (s.length : ℚ) / 3 < bl.getD 0 ∧ bl.isSome = true
      · rw [if_pos h3]
        obtain ⟨x, hx⟩ := Option.isSome_iff_exists.mp h3.2
        refine Or.inr ⟨rfl, Or.inr (Or.inr ⟨x, hx, Or.inr ?_⟩)⟩
        have := h3.1
        rw [hx] at this
        exact this
      · rw [if_neg h3]
        cases hm : median (valids ((yoyTable (renormalize (sortIndex s) (some k))).map YoYRow.yoy)) with
        | none =>
          refine Or.inr ⟨rfl, Or.inr (Or.inl fun hp => ?_)⟩
          have := median_isSome.mpr ((rates_nonempty hd hk0).mpr hp)
          rw [hm] at this
          exact absurd this (by simp)
        | some rd =>
          refine Or.inl ⟨⟨_, rfl⟩, h1', ?_, ?_⟩
          · apply (rates_nonempty hd hk0).mp
            rw [← median_isSome, hm]; rfl
          · intro x hx
            rw [hx] at h2 h3
            simp only [Option.isSome_some, true_and, Option.getD_some, and_true, not_lt] at h2 h3
            exact ⟨h2, h3⟩

/-- **C25 (no interval or simple bootstrap).** With valid percentage levels, the call raises ValueError
exactly when the data is more than a step short of two years or when no sample and its comparison
partner are both present; otherwise it returns a result. -/
theorem C25_value_error_iff {ts : List Int} (hne : s ≠ []) (hd : (s.map Prod.fst).Nodup)
    (hts : ts.Perm (s.map Prod.fst)) (hsort : ts.Pairwise (· ≤ ·))
    (hrec : recenter = true → Spec.Recentrable s) (hm : method ≠ .circularBlock)
    (hconf : 0 ≤ conf ∧ conf ≤ 100) (hex : 0 ≤ exceed ∧ exceed ≤ 100)
    (hch : ∀ l, l ≠ [] → ∃ x ∈ choose l, x ≠ []) :
    (yoy inferFreq recenter exceed conf method block choose draws s = .error .valueError ↔
      TooShort (inferFreq ts) ts ∨ ¬ HasPair s) ∧
    ((∃ r, yoy inferFreq recenter exceed conf method block choose draws s = .ok r) ↔
      ¬ TooShort (inferFreq ts) ts ∧ HasPair s) := by
  have hok : ∀ c, yoyCore inferFreq recenter none s = .ok c →
      ∃ r, yoy inferFreq recenter exceed conf method block choose draws s = .ok r := by
    intro c hc
    unfold yoy
    rw [if_neg hm, hc]
    simp only [Except.bind]
    cases method with
    | none => exact ⟨_, rfl⟩
    | circularBlock => exact absurd rfl hm
    | simple =>
      obtain ⟨-, -, -, hr, hmed⟩ := yoyCore_ok hc
      have hrne : c.rates ≠ [] := by rw [← median_isSome, hmed]; rfl
      obtain ⟨x, hx, hxne⟩ := hch _ hrne
      obtain ⟨m, hmm⟩ := Option.isSome_iff_exists.mp (median_isSome.mpr hxne)
      have hmb : (choose c.rates).filterMap median ≠ [] :=
        List.ne_nil_of_mem (List.mem_filterMap.mpr ⟨x, hx, hmm⟩)
      obtain ⟨v1, e1⟩ := percentileE_defined hmb (p := 50 - conf / 2) (by linarith [hconf.2]) (by linarith [hconf.1])
      obtain ⟨v2, e2⟩ := percentileE_defined hmb (p := 50 + conf / 2) (by linarith [hconf.1]) (by linarith [hconf.2])
      obtain ⟨v3, e3⟩ := percentileE_defined hmb (p := 100 - exceed) (by linarith [hex.2]) (by linarith [hex.1])
      simp only [confidenceInterval, e1, e2, e3, Except.bind]
      exact ⟨_, rfl⟩
  rcases yoyCore_error_iff (inferFreq := inferFreq) hne hd hts hsort hrec none with
    ⟨⟨c, hc⟩, h1, h2, -⟩ | ⟨he, h1⟩
  · obtain ⟨r, hr⟩ := hok c hc
    rw [hr]
    constructor
    · constructor
      · intro h; exact absurd h (by simp)
      · rintro (h | h)
        · exact absurd h h1
        · exact absurd h2 h
    · exact ⟨fun _ => ⟨h1, h2⟩, fun _ => ⟨r, rfl⟩⟩
  · have : yoy inferFreq recenter exceed conf method block choose draws s = .error .valueError := by
      unfold yoy
      rw [if_neg hm, he]
      rfl
    rw [this]
    have h1' : TooShort (inferFreq ts) ts ∨ ¬ HasPair s := by
      rcases h1 with h | h | ⟨x, hx, -⟩
      · exact Or.inl h
      · exact Or.inr h
      · exact absurd hx (by simp)
    constructor
    · exact ⟨fun _ => h1', fun _ => rfl⟩
    · constructor
      · rintro ⟨r, hr⟩; exact absurd hr (by simp)
      · rintro ⟨ha, hb⟩; rcases h1' with h | h
        · exact absurd h ha
        · exact absurd hb h

/-- **C25 (circular block).** In addition, an irregular index or a block longer than a third of the
data raises ValueError. -/
theorem C25_circular {ts : List Int} (hne : s ≠ []) (hd : (s.map Prod.fst).Nodup)
    (hts : ts.Perm (s.map Prod.fst)) (hsort : ts.Pairwise (· ≤ ·))
    (hrec : recenter = true → Spec.Recentrable s)
    (hbad : inferFreq ts = none ∨ (s.length : ℚ) / 3 < block ∨ TooShort (inferFreq ts) ts ∨ ¬ HasPair s) :
    yoy inferFreq recenter exceed conf .circularBlock block choose draws s = .error .valueError := by
  unfold yoy
  rw [if_pos rfl]
  rcases yoyCore_error_iff (inferFreq := inferFreq) hne hd hts hsort hrec (some (block : ℚ)) with
    ⟨⟨c, hc⟩, h1, h2, h3⟩ | ⟨he, h1⟩
  · exfalso
    obtain ⟨h4, h5⟩ := h3 _ rfl
    rcases hbad with h | h | h | h
    · exact h4 h
    · linarith
    · exact h1 h
    · exact h h2
  · rw [he]; rfl

example : ((exampleYoY.map Prod.fst).insertionSort (· ≤ ·)).Pairwise (· ≤ ·) ∧
    (yoy noFreq false 95 68 .simple 30 (fun l => [l]) [] exampleYoY).toOption.isSome = true ∧
    (yoy noFreq false 95 68 .simple 30 (fun l => [l]) [] (exampleYoY.take 3)).toOption.isSome = false ∧
    (yoy (fun _ => some dayNs) false 95 68 .circularBlock 2 (fun l => [l]) [[0]]
      exampleYoY).toOption.isSome = false := by
  refine ⟨?_, ?_, ?_, ?_⟩ <;> decide +kernel

example : Spec.Recentrable exampleYoY := by
  refine ⟨?_, 17955 * dayNs, 17955 * dayNs, 100, by decide +kernel, by decide +kernel,
    by decide +kernel, by norm_num, by unfold dayNs; norm_num⟩
  intro t e h
  simp only [exampleYoY, List.mem_cons, Prod.mk.injEq, Option.some.injEq, List.not_mem_nil, or_false] at h
  rcases h with ⟨_, rfl⟩ | ⟨_, rfl⟩ | ⟨_, rfl⟩ | ⟨_, rfl⟩ | ⟨_, rfl⟩ <;> norm_num

end Verif
