import Verif.Props.Energy

/-! # Property C05 on regular series, default arguments -/

namespace Verif
open Spec

theorem keys_regular (t0 f : Int) (n : Nat) (c : Nat → Cell) :
    keys (regular t0 f n c) = (List.range n).map fun k : Nat => t0 + (k : Int) * f := by
  simp [keys, regular, Function.comp_def]

theorem regular_sorted {t0 f : Int} (hf : 0 < f) (n : Nat) (c : Nat → Cell) :
    StrictSorted (keys (regular t0 f n c)) := by
  rw [keys_regular]
  unfold StrictSorted
  rw [List.pairwise_map]
  refine List.Pairwise.imp ?_ List.pairwise_lt_range
  intro a b hab
  have h1 : (a : Int) + 1 ≤ b := by exact_mod_cast hab
  nlinarith

theorem zipWith_regular (t0 f : Int) (n : Nat) :
    List.zipWith (fun a b : Int => (b : ℚ) - a)
      ((List.range (n + 1)).map fun k : Nat => t0 + (k : Int) * f)
      ((List.range (n + 1)).map fun k : Nat => t0 + (k : Int) * f).tail =
      List.replicate n (f : ℚ) := by
  apply List.ext_getElem
  · simp
  · intro i h1 h2
    simp
    ring

theorem indexSteps_regular (t0 f : Int) (n : Nat) (c : Nat → Cell) :
    indexSteps (regular t0 f (n + 1) c) = List.replicate n (f : ℚ) := by
  have := keys_regular t0 f (n + 1) c
  unfold indexSteps
  rw [show (regular t0 f (n + 1) c).map Prod.fst = keys (regular t0 f (n + 1) c) from rfl, this]
  exact zipWith_regular t0 f n

theorem median_replicate (n : Nat) (x : ℚ) : median (List.replicate (n + 1) x) = some x := by
  have hne : List.replicate (n + 1) x ≠ [] := by simp
  have hsome : (median (List.replicate (n + 1) x)).isSome := quantile_isSome.mpr hne
  obtain ⟨v, hv⟩ := Option.isSome_iff_exists.mp hsome
  have h1 : x ≤ v := quantile_ge hv (by norm_num) (by norm_num) (fun a ha => by
    rw [List.eq_of_mem_replicate ha])
  have h2 : v ≤ x := quantile_le hv (by norm_num) (by norm_num) (fun a ha => by
    rw [List.eq_of_mem_replicate ha])
  rw [hv, le_antisymm h2 h1]

theorem mem_regular {t0 f : Int} {n : Nat} {c : Nat → Cell} {t : Int} {x : Cell} :
    (t, x) ∈ regular t0 f n c ↔ ∃ k, k < n ∧ t = t0 + (k : Int) * f ∧ x = c k := by
  unfold regular
  simp only [List.mem_map, List.mem_range, Prod.mk.injEq]
  constructor
  · rintro ⟨k, h1, rfl, rfl⟩; exact ⟨k, h1, rfl, rfl⟩
  · rintro ⟨k, h1, rfl, rfl⟩; exact ⟨k, h1, rfl, rfl⟩

/-- With the step as gap limit, interpolation to the series' own index is the identity. -/
theorem interpolate_regular_self {t0 f : Int} (hf : 0 < f) (n : Nat) (c : Nat → Cell) :
    interpolateSeries (regular t0 f n c)
      ((List.range n).map fun k : Nat => t0 + (k : Int) * f) (some (f : ℚ)) =
      .ok (regular t0 f n c) := by
  have hs := regular_sorted (t0 := t0) hf n c
  have hds := dropna_sorted hs
  rw [interpolateSeries_eq hs, List.map_map]
  congr 1
  show _ = (List.range n).map fun k : Nat => (t0 + (k : Int) * f, c k)
  apply List.map_congr_left
  intro k hk
  have hkn := List.mem_range.mp hk
  simp only [Function.comp_apply, gapLimit]
  congr 1
  unfold valueAt
  cases hck : c k with
  | some v =>
    have hm : (t0 + (k : Int) * f, v) ∈ dropna (regular t0 f n c) :=
      mem_dropna.mpr (mem_regular.mpr ⟨k, hkn, rfl, hck.symm⟩)
    rw [(lookup_toSeries_some hds).mpr hm]
    have : (0 : ℚ) ≤ f := by exact_mod_cast hf.le
    simp [within, cellCmp, this]
  | none =>
    have hno : t0 + (k : Int) * f ∉ keys (dropna (regular t0 f n c)) := by
      intro h
      obtain ⟨⟨t, v⟩, hr, ht⟩ := List.mem_map.mp h
      obtain ⟨j, hj, h1, h2⟩ := mem_regular.mp (mem_dropna.mp hr)
      simp only at ht
      have hjk : (j : Int) = k := by
        have : ((j : Int) - k) * f = 0 := by
          have : t0 + (j : Int) * f = t0 + k * f := by omega
          linarith
        rcases mul_eq_zero.mp this with h | h <;> omega
      have : j = k := by exact_mod_cast hjk
      subst this
      rw [hck] at h2; cases h2
    rw [lookup_toSeries_none.mpr hno]
    simp only
    cases hp : prevRow (dropna (regular t0 f n c)) (t0 + (k : Int) * f) with
    | none => rfl
    | some x =>
      cases hn : nextRow (dropna (regular t0 f n c)) (t0 + (k : Int) * f) with
      | none => rfl
      | some y =>
        obtain ⟨a, va⟩ := x
        obtain ⟨b, vb⟩ := y
        obtain ⟨⟨l1, l2, e⟩, h1, h2⟩ := adjacent_of_prev_next hds hno hp hn
        simp only at h1 h2 ⊢
        rw [if_neg]
        intro hw
        obtain ⟨m, hm, hle⟩ := within_iff.mp hw
        cases hm
        have ha : (a, va) ∈ dropna (regular t0 f n c) := by rw [e]; simp
        have hb : (b, vb) ∈ dropna (regular t0 f n c) := by rw [e]; simp
        obtain ⟨i, _, hi, _⟩ := mem_regular.mp (mem_dropna.mp ha)
        obtain ⟨j, _, hj, _⟩ := mem_regular.mp (mem_dropna.mp hb)
        have hle' : b - a ≤ f := by exact_mod_cast hle
        have e1 : (i : Int) < k := by
          have : ((k : Int) - i) * f > 0 := by rw [hi] at h1; linarith
          by_contra hc
          push Not at hc
          nlinarith
        have e2 : (k : Int) < j := by
          have : ((j : Int) - k) * f > 0 := by rw [hj] at h2; linarith
          by_contra hc
          push Not at hc
          nlinarith
        have : ((j : Int) - i) * f ≤ f := by rw [hi, hj] at hle'; linarith
        nlinarith

/-- contribution of one grid interval -/
theorem regular_contribution {t0 f : Int} (hf : 0 < f) (n : Nat) (c : Nat → Cell) {k : Nat}
    (hk : k + 1 < n) :
    total (rectContributions f (t0 + (k : Int) * f) (t0 + ((k : Int) + 1) * f)
      (dropna (regular t0 f n c))) =
      cellOp (fun _ y => y * f / nsPerHour) (c k) (c (k + 1)) := by
  have hs := regular_sorted (t0 := t0) hf n c
  have hds := dropna_sorted hs
  have hgrid : ∀ {t v}, (t, v) ∈ dropna (regular t0 f n c) →
      ∃ j : Nat, j < n ∧ t = t0 + (j : Int) * f ∧ c j = some v := by
    intro t v h
    obtain ⟨j, hj, h1, h2⟩ := mem_regular.mp (mem_dropna.mp h)
    exact ⟨j, hj, h1, h2.symm⟩
  have hw : ((k : Int) + 1) * f = k * f + f := by ring
  have hcmp : ∀ i j : Nat, (i : Int) * f < j * f ↔ i < j := by
    intro i j
    constructor
    · intro h
      by_contra hc
      push Not at hc
      have : (j : Int) ≤ i := by exact_mod_cast hc
      nlinarith
    · intro h
      have : (i : Int) + 1 ≤ j := by exact_mod_cast h
      nlinarith
  rw [contributions_local (show t0 + (k : Int) * f < t0 + ((k : Int) + 1) * f by omega) hds]
  · cases hr : rate f (t0 + ((k : Int) + 1) * f) (dropna (regular t0 f n c)) with
    | some v =>
      obtain ⟨a, va, b, ⟨l1, l2, e⟩, h1, h2, h3⟩ := rate_some hr
      have ha : (a, va) ∈ dropna (regular t0 f n c) := by rw [e]; simp
      have hb : (b, v) ∈ dropna (regular t0 f n c) := by rw [e]; simp
      obtain ⟨i, _, hi, hci⟩ := hgrid ha
      obtain ⟨j, _, hj, hcj⟩ := hgrid hb
      have h3' : b - a ≤ f := by exact_mod_cast h3
      have e1 : i < k + 1 := by
        apply (hcmp i (k + 1)).mp; push_cast; omega
      have e2 : ¬ j < k + 1 := by
        intro h
        have := (hcmp j (k + 1)).mpr h
        push_cast at this; omega
      have e3 : ¬ i + 1 < j := by
        intro h
        have := (hcmp (i + 1) j).mpr h
        push_cast at this
        have : ((i : Int) + 1) * f = i * f + f := by ring
        omega
      have hij : i = k := by omega
      have hjk : j = k + 1 := by omega
      subst hij; subst hjk
      rw [hci, hcj]
      have : t0 + ((i : Int) + 1) * f - (t0 + (i : Int) * f) = f := by ring
      simp [total, cellOp, this]
    | none =>
      cases hck : c k with
      | none => rfl
      | some v =>
        cases hck1 : c (k + 1) with
        | none => rfl
        | some w =>
          exfalso
          have hcons : Consecutive (regular t0 f n c) (t0 + (k : Int) * f) v
              (t0 + ((k : Int) + 1) * f) w := by
            refine ⟨mem_regular.mpr ⟨k, by omega, rfl, hck.symm⟩,
              mem_regular.mpr ⟨k + 1, hk, by push_cast; rfl, hck1.symm⟩, by omega, ?_⟩
            intro u x hu
            obtain ⟨j, _, rfl, _⟩ := mem_regular.mp hu
            by_cases hjk : j ≤ k
            · left
              rcases Nat.lt_or_eq_of_le hjk with h | h
              · have := (hcmp j k).mpr h; omega
              · rw [h]
            · right
              rcases Nat.lt_or_eq_of_le (show k + 1 ≤ j by omega) with h | h
              · have := (hcmp (k + 1) j).mpr h; push_cast at this; omega
              · rw [← h]; push_cast; exact le_refl _
          have := rate_of_adjacent (m := (f : ℚ)) (u := t0 + ((k : Int) + 1) * f) hds
            ((consecutive_iff hs).mp hcons) (by omega) (le_refl _)
          rw [hr, if_pos] at this
          · cases this
          · push_cast; linarith
  · intro t ht ⟨h1, h2⟩
    obtain ⟨⟨t', v⟩, hr, rfl⟩ := List.mem_map.mp ht
    obtain ⟨j, _, hj, _⟩ := hgrid hr
    simp only at h1 h2
    have e1 : k < j := (hcmp k j).mp (by omega)
    have e2 : j < k + 1 := by
      apply (hcmp j (k + 1)).mp; push_cast; omega
    omega

theorem energy_regular {t0 f : Int} (hf : 0 < f) (n : Nat) (c : Nat → Cell)
    (hv : ∃ k, k < n + 2 ∧ c k ≠ none) (fr : Option Int) :
    energyFromPower (regular t0 f (n + 2) c) none none .rightLabeled fr =
      .ok (regular (t0 + f) f (n + 1)
        (fun k => cellOp (fun _ y => y * f / nsPerHour) (c k) (c (k + 1)))) := by
  have hs := regular_sorted (t0 := t0) hf (n + 2) c
  have hkeys := keys_regular t0 f (n + 2) c
  have hlen : ¬ (regular t0 f (n + 2) c).length ≤ 1 := by simp [regular]
  have hmed : median (valids ((tStepNs ((regular t0 f (n + 2) c).map Prod.fst)).map Prod.snd)) =
      some (f : ℚ) := by
    unfold tStepNs
    rw [valids_gaps_list]
    have := indexSteps_regular t0 f (n + 1) c
    unfold indexSteps at this
    rw [this]
    exact median_replicate n f
  have hmask : ∀ L, ¬ InLongStep (regular t0 f (n + 2) c) f L := by
    rintro L ⟨⟨a, b⟩, hab, _, _, h⟩
    have hle : ∀ s ∈ indexSteps (regular t0 f (n + 2) c), s ≤ f := by
      rw [indexSteps_regular]
      intro s hs'; rw [List.eq_of_mem_replicate hs']
    have := steps_le hle a b (adjacent_zip.mpr hab)
    simp only at h; linarith
  have h0 : (keys (regular t0 f (n + 2) c)).head? = some t0 := by
    rw [hkeys, List.range_succ_eq_map]; simp
  have hn : (keys (regular t0 f (n + 2) c)).getLast? = some (t0 + ((n + 1 : Nat) : Int) * f) := by
    rw [hkeys, List.range_succ]; simp
  have hd : dropna (regular t0 f (n + 2) c) ≠ [] := by
    obtain ⟨k, hk, hck⟩ := hv
    obtain ⟨v, hv⟩ := Option.ne_none_iff_exists'.mp hck
    exact List.ne_nil_of_mem (mem_dropna.mpr (mem_regular.mpr ⟨k, hk, rfl, hv.symm⟩))
  have hdr : dateRange t0 (t0 + ((n + 1 : Nat) : Int) * f) f =
      (List.range (n + 2)).map fun k : Nat => t0 + (k : Int) * f := by
    unfold dateRange
    have : (t0 + ((n + 1 : Nat) : Int) * f - t0) / f = ((n + 1 : Nat) : Int) := by
      rw [show t0 + ((n + 1 : Nat) : Int) * f - t0 = ((n + 1 : Nat) : Int) * f by ring]
      exact Int.mul_ediv_cancel _ (by omega)
    rw [this]
    congr 1
  have hlab : (rightLabels t0 (t0 + ((n + 1 : Nat) : Int) * f) f).tail =
      (List.range (n + 1)).map fun k : Nat => t0 + ((k : Int) + 1) * f := by
    unfold rightLabels
    have : (t0 + ((n + 1 : Nat) : Int) * f - t0 + f - 1) / f = ((n + 1 : Nat) : Int) := by
      rw [show t0 + ((n + 1 : Nat) : Int) * f - t0 + f - 1 = (f - 1) + ((n + 1 : Nat) : Int) * f by ring,
        Int.add_mul_ediv_right _ _ (by omega), Int.ediv_eq_zero_of_lt (by omega) (by omega)]
      simp
    rw [this, show (((n + 1 : Nat) : Int) + 1).toNat = n + 1 + 1 by omega, List.range_succ_eq_map]
    simp only [List.map_cons, List.map_map, List.tail_cons]
    apply List.map_congr_left
    intro k _
    simp only [Function.comp_apply]; push_cast; ring
  unfold energyFromPower
  rw [if_neg hlen]
  dsimp only
  rw [hmed]
  dsimp only [Option.getD]
  rw [Int.floor_intCast, if_pos (le_refl _)]
  have e0 : ((regular t0 f (n + 2) c).map Prod.fst).headD 0 = t0 := by
    rw [List.headD_eq_head?_getD, show (regular t0 f (n + 2) c).map Prod.fst = keys (regular t0 f (n + 2) c) from rfl, h0]; rfl
  have en : ((regular t0 f (n + 2) c).map Prod.fst).getLastD 0 = t0 + ((n + 1 : Nat) : Int) * f := by
    rw [List.getLastD_eq_getLast?, show (regular t0 f (n + 2) c).map Prod.fst = keys (regular t0 f (n + 2) c) from rfl, hn]; rfl
  rw [e0, en, hdr, interpolate_regular_self hf]
  simp only [Except.bind, aggregate_right hs hf (f : ℚ) h0 hn hd]
  congr 1
  rw [hlab, List.map_map, List.map_map]
  unfold regular
  apply List.map_congr_left
  intro k hk
  have hk' := List.mem_range.mp hk
  simp only [Function.comp_apply]
  have hmk := hmask (t0 + ((k : Int) + 1) * f)
  have hs' : ¬ (cellCmp (fun a b => decide (a > b)) (firstLabelGe (tStepNs (List.map Prod.fst
      (regular t0 f (n + 2) c))) (t0 + ((k : Int) + 1) * f)) (some (f : ℚ)) = true) :=
    fun h => hmk ((longStep_mask hs _ _).mp h)
  unfold regular at hs'
  rw [if_neg hs']
  have hcon := regular_contribution (t0 := t0) hf (n + 2) c (k := k) (by omega)
  unfold regular at hcon
  rw [show t0 + ((k : Int) + 1) * f - f = t0 + (k : Int) * f by ring, hcon]
  congr 1
  ring

/-- **C05 (regular data, default arguments).** For a regular right-labeled series with any pattern
of missing samples (not all missing), the energy at each timestamp after the first is power × step
when both ends of the interval are valid, and NaN otherwise; the first timestamp carries none. -/
theorem C05_regular {t0 f : Int} (hf : 0 < f) (n : Nat) (c : Nat → Cell)
    (hv : ∃ k, k < n + 2 ∧ c k ≠ none) (fr : Option Int) :
    energyFromPower (regular t0 f (n + 2) c) none none .rightLabeled fr =
      .ok (regular (t0 + f) f (n + 1)
        (fun k => (c k).bind fun _ => (c (k + 1)).map fun y => y * f / nsPerHour)) := by
  rw [energy_regular hf n c hv fr]
  congr 2
  funext k
  cases c k <;> cases c (k + 1) <;> rfl

/-! ## where the code falls short of the property, and concrete cases -/

/-- one hour in ns -/
abbrev hour : Int := 3600000000000

/-- Instantaneous power: the interval that follows a gap is lost although both of its ends are
valid and it is no longer than `max_timedelta` (samples at 0h, 1h, 4h, 5h; limit 1 h). -/
theorem C05_instantaneous_loses_interval_after_gap :
    energyFromPower [(0, some 1), (hour, some 1), (2 * hour, none), (3 * hour, none),
      (4 * hour, some 1), (5 * hour, some 1)] none none .instantaneous none =
      .ok [(hour, some 1), (2 * hour, none), (3 * hour, none), (4 * hour, none),
        (5 * hour, none)] := by decide +kernel

/-- The same data as right-labeled power: the value at 5h is reported. -/
theorem C05_right_labeled_keeps_interval_after_gap :
    energyFromPower [(0, some 1), (hour, some 1), (2 * hour, none), (3 * hour, none),
      (4 * hour, some 1), (5 * hour, some 1)] none none .rightLabeled none =
      .ok [(hour, some 1), (2 * hour, none), (3 * hour, none), (4 * hour, none),
        (5 * hour, some 1)] := by decide +kernel

/-- Instantaneous power: energy is invented after the last sample. Two hours of data at 1 W
converted to a 6-hour period give 6 Wh, not 2 Wh. -/
theorem C06_instantaneous_extrapolates :
    energyFromPower [(0, some 1), (hour, some 1), (2 * hour, some 1)] (some (6 * hour))
      (some (6 * 3600000000000)) .instantaneous none = .ok [(6 * hour, some 6)] ∧
    energyFromPower [(0, some 1), (hour, some 1), (2 * hour, some 1)] (some (6 * hour))
      (some (6 * 3600000000000)) .rightLabeled none = .ok [(6 * hour, some 2)] := by
  decide +kernel

/-- 15-minute data with one longer step, irregular with respect to hourly periods -/
def exPower : Series :=
  [(0, some 4), (hour / 2, some 2), (hour, none), (3 * hour / 2, some 6), (4 * hour, some 1),
    (9 * hour / 2, some 3)]

example : Increasing exPower := by decide
example : ∃ t v, ValidAt exPower t v := ⟨0, 4, by simp [ValidAt, exPower]⟩
example : median (indexSteps exPower) = some (hour / 2 : Int) := by decide +kernel
example : energyFromPower exPower (some hour) (some hour) .rightLabeled none =
    .ok [(hour, some 4), (2 * hour, none), (3 * hour, none), (4 * hour, none),
      (5 * hour, some (3 / 2))] := by decide +kernel
example : InLongStep exPower hour (3 * hour) := by decide +kernel
/-- hypotheses of the conservation theorems: gap-free, steps of 20 and 40 minutes, 1 h periods -/
example : let p : Series := [(0, some 4), (hour / 3, some 2), (hour, some 5), (4 * hour / 3, some 6)]
    Increasing p ∧ (∀ r ∈ p, r.2 ≠ none) ∧ median (indexSteps p) = some (hour / 3 : Int) ∧
      (∀ s ∈ indexSteps p, s ≤ (hour : ℚ)) := by decide +kernel
example : energyFromPower (regular 0 hour 4 (fun k => if k = 2 then none else some (k + 1))) none
    none .rightLabeled none =
    .ok [(hour, some 2), (2 * hour, none), (3 * hour, none)] := by decide +kernel

end Verif
