import Verif.Lemmas.Filtering
import Verif.Lemmas.EnergyCalGrid
import Verif.Lemmas.Percentile

/-! # Property C107 (energy per calendar period) -/

namespace Verif
open Spec

namespace Spec

/-- a point of the frequency "every `k` months": midnight of the first day of a month whose number since January of year 0 is a
multiple of `k` -/
def IsStart (k x : Int) : Prop :=
  x % dayNs = 0 ∧ (civil (x / dayNs)).day = 1 ∧ k ∣ 12 * (civil (x / dayNs)).year + (civil (x / dayNs)).month - 1

instance (k x : Int) : Decidable (IsStart k x) := by unfold IsStart; infer_instance

/-- `(x, y]` is a period of the frequency: from one of its points to the next -/
def IsPeriod (k x y : Int) : Prop := IsStart k x ∧ IsStart k y ∧ x < y ∧ ∀ z, IsStart k z → z ≤ x ∨ y ≤ z

/-- increasing times, all at the same time after a point of the frequency (`date_range` keeps the time of day of its start) -/
def OnFrequency (k : Int) (inner : List Int) : Prop := inner.Pairwise (· < ·) ∧ ∃ d, ∀ t ∈ inner, IsStart k (t - d)

end Spec

theorem isStart_iff {k : Int} (hk : 0 < k) (x : Int) : IsStart k x ↔ ∃ q, x = calPoint k q := by
  constructor
  · rintro ⟨h0, h1, q, hq⟩
    refine ⟨q, ?_⟩
    have := first_of_month h1
    rw [show monthNo (x / dayNs) = k * q from hq] at this
    rw [calPoint_eq, ← this]
    have := Int.mul_ediv_add_emod x dayNs
    rw [h0] at this
    linarith
  · rintro ⟨q, rfl⟩
    refine ⟨by rw [calPoint_eq]; exact Int.mul_emod_left _ _, ?_, ?_⟩
    · rw [calPoint_div, civil_monthFirst]
    · rw [calPoint_div]
      exact ⟨q, monthNo_monthFirst (k * q)⟩

theorem isPeriod_iff {k : Int} (hk : 0 < k) (x y : Int) : IsPeriod k x y ↔ ∃ q, x = calPoint k q ∧ y = calPoint k (q + 1) := by
  constructor
  · rintro ⟨h1, h2, h3, h4⟩
    obtain ⟨q, rfl⟩ := (isStart_iff hk x).mp h1
    obtain ⟨p, rfl⟩ := (isStart_iff hk y).mp h2
    have hqp := (calPoint_lt hk).mp h3
    rcases h4 _ ((isStart_iff hk _).mpr ⟨q + 1, rfl⟩) with h | h
    · have := (calPoint_le hk).mp h; omega
    · have := (calPoint_le hk).mp h
      exact ⟨q, rfl, by rw [show p = q + 1 by omega]⟩
  · rintro ⟨q, rfl, rfl⟩
    refine ⟨(isStart_iff hk _).mpr ⟨q, rfl⟩, (isStart_iff hk _).mpr ⟨q + 1, rfl⟩, (calPoint_lt hk).mpr (by omega), ?_⟩
    intro z hz
    obtain ⟨p, rfl⟩ := (isStart_iff hk z).mp hz
    rw [calPoint_le hk, calPoint_le hk]
    omega

theorem startDay_le_iff {k : Int} (q t : Int) : startDay t ≤ calPoint k q ↔ t < calPoint k q + dayNs := by
  have e := Int.mul_ediv_add_emod t dayNs
  have h1 := Int.emod_nonneg t (ne_of_gt dayNs_pos)
  have h2 := Int.emod_lt_of_pos t dayNs_pos
  unfold startDay
  rw [calPoint_eq]
  have hd := dayNs_pos
  constructor
  · intro h; nlinarith
  · intro h
    have : t / dayNs ≤ monthFirst (k * q) := by
      by_contra hc
      have : monthFirst (k * q) + 1 ≤ t / dayNs := by omega
      nlinarith
    nlinarith

/-- the steps of such times are at least 28 days long -/
theorem frequency_steps {k : Int} (hk : 0 < k) {inner : List Int} (h : OnFrequency k inner) :
    ∀ s, median (List.zipWith (fun a b : Int => (b : ℚ) - a) inner inner.tail) = some s → (28 * dayNs : Int) ≤ s := by
  intro s hs
  obtain ⟨h1, d, h2⟩ := h
  refine median_ge hs fun x hx => ?_
  rw [← List.map_uncurry_zip_eq_zipWith] at hx
  obtain ⟨⟨a, b⟩, hab, rfl⟩ := List.mem_map.mp hx
  obtain ⟨p, hp⟩ := (isStart_iff hk _).mp (h2 a (List.of_mem_zip hab).1)
  obtain ⟨q, hq⟩ := (isStart_iff hk _).mp (h2 b (List.mem_of_mem_tail (List.of_mem_zip hab).2))
  have hlt : a < b := by
    obtain ⟨l1, l2, e⟩ := adjacent_zip.mpr hab
    rw [e] at h1
    exact (List.pairwise_cons.mp (List.pairwise_append.mp h1).2.1).1 b (by simp)
  have hpq : p < q := (calPoint_lt hk).mp (by rw [← hp, ← hq]; omega)
  have h1 := calPoint_step hk hpq
  have : a + 28 * dayNs ≤ b := by omega
  have : (a : ℚ) + (28 * dayNs : Int) ≤ b := by exact_mod_cast this
  simp only [Function.uncurry]
  linarith

/-- `energy_from_power` with a calendar frequency coarser than the data -/
theorem energyCal_coarse {power : Series} {k : Int} {inner : List Int} {m g : ℚ} {ty : PowerType}
    (hlen : 2 ≤ power.length) (hs : StrictSorted (keys power)) (hg : median (indexSteps power) = some g)
    (hin : ∀ s, median (List.zipWith (fun a b : Int => (b : ℚ) - a) inner inner.tail) = some s → g < s)
    {out : List (Int × Cell)} (h : aggregateCal power k m ty = .ok out) :
    energyFromPowerCal power k inner (some m) ty = .ok (out.map fun r =>
      if InLongStep power m r.1 then (r.1, none) else r) := by
  unfold energyFromPowerCal
  rw [if_neg (by omega)]
  dsimp only
  have hg' : median (valids ((tStepNs (power.map Prod.fst)).map Prod.snd)) = some g := by
    unfold tStepNs; rw [valids_gaps_list]; exact hg
  have hi' : median (valids ((tStepNs inner).map Prod.snd)) =
      median (List.zipWith (fun a b : Int => (b : ℚ) - a) inner inner.tail) := by
    unfold tStepNs; rw [valids_gaps_list]
  rw [hg']
  dsimp only [Option.getD]
  rw [hi', if_neg]
  · simp only [Except.bind, h]
    congr 1
    apply List.map_congr_left
    intro r _
    by_cases hL : InLongStep power m r.1
    · rw [if_pos hL, if_pos ((longStep_mask hs m r.1).mpr hL)]
    · rw [if_neg hL, if_neg (fun hc => hL ((longStep_mask hs m r.1).mp hc))]
  · intro hc
    cases hm : median (List.zipWith (fun a b : Int => (b : ℚ) - a) inner inner.tail) with
    | none => rw [hm] at hc; simp [cellCmp] at hc
    | some s =>
      rw [hm] at hc
      simp only [cellCmp, decide_eq_true_eq] at hc
      exact absurd (hin s hm) (not_lt.mpr hc)

theorem contributions_after {m : ℚ} {x y : Int} {d : List (Int × ℚ)} (h : ∀ k ∈ keys d, k ≤ x) : rectContributions m x y d = [] := by
  induction d with
  | nil => rfl
  | cons r d ih =>
    cases d with
    | nil => rfl
    | cons r' d =>
      obtain ⟨a, va⟩ := r
      obtain ⟨b, vb⟩ := r'
      have hb := h b (by simp [keys])
      have := ih fun k hk => h k (by simp only [keys, List.map_cons, List.mem_cons] at hk ⊢; exact .inr hk)
      rw [rectContributions, this, if_neg]
      · rfl
      · rintro ⟨-, h⟩
        unfold overlap at h
        omega

theorem range_pos {k : Int} (hk : 0 < k) {first last : Int} (h : first ≤ last) :
    ∃ n : Nat, (calNo k last + 2 - calBefore k first).toNat = n + 2 ∧ calBefore k first + n = calNo k last ∧
      (calNo k last + 1 - calBefore k first).toNat = n + 1 := by
  have := calBefore_le_calNo hk h
  exact ⟨(calNo k last - calBefore k first).toNat, by omega, by omega, by omega⟩

theorem last_before {k : Int} (hk : 0 < k) (last : Int) : last < calPoint k (calNo k last + 1) := by
  by_contra hc
  have := (calPoint_le_iff _ _).mp (not_lt.mp hc)
  have := (calNo_bounds hk last).2
  omega

/-- the result for right-labeled power -/
theorem energyCal_right {power : Series} (hs : Increasing power) (hlen : 2 ≤ power.length)
    (hv : dropna power ≠ []) {k : Int} (hk : 0 < k) {inner : List Int} {g m : ℚ} {first last : Int}
    (h0 : (keys power).head? = some first) (hl : (keys power).getLast? = some last)
    (hg : median (indexSteps power) = some g)
    (hin : ∀ s, median (List.zipWith (fun a b : Int => (b : ℚ) - a) inner inner.tail) = some s → g < s) :
    energyFromPowerCal power k inner (some m) .rightLabeled =
      .ok ((intRange (calBefore k first + 1) (calNo k last + 1 - calBefore k first).toNat).map fun q => (calPoint k (q + 1),
        if InLongStep power m (calPoint k (q + 1)) then none
        else total (rectContributions m (calPoint k q) (calPoint k (q + 1)) (validRows power)))) := by
  obtain ⟨hb1, hb2⟩ := head_le_last hs h0 hl
  obtain ⟨n, hn, hn', hn1⟩ := range_pos hk (hb1 _ (List.mem_of_getLast? hl))
  have hgrid := calGrid_sorted hk first last
  have h := energyCal_coarse hlen hs hg hin (out := _) (by
    rw [aggregateCal_eq hs hk h0 hl, aggregateEdges_right hs hgrid m hv]; rfl)
  rw [h]
  congr 1
  unfold calGrid
  rw [hn, bins_calGrid, hn1, intRange_snoc, List.map_append, List.map_append, List.map_map, List.map_map, List.map_singleton,
    List.map_singleton]
  congr 1
  · apply List.map_congr_left
    intro q _
    simp only [Function.comp_apply]
    split <;> rfl
  · have e : calBefore k first + 1 + (n : Int) = calNo k last + 1 := by omega
    rw [e, contributions_after]
    · simp only [total, if_true]
      rw [show calNo k last + 1 + 1 = calNo k last + 2 by ring]
      split <;> simp
    · intro t ht
      exact (hb2 t (keys_dropna_sub ht)).trans (last_before hk last).le

/-- **C107 (calendar periods).** For every series with increasing timestamps and at least one valid sample, every gap limit and the
frequencies of month, quarter and year starts (`k = 1, 3, 12`), if the median step is below 28 days: `energy_from_power`
returns, in order and labelled by its end, one value for every calendar period that starts on or after the day of the first
timestamp, up to the period after that of the last timestamp. The value is the sum of power × time over the parts of the period that lie in
an interval of at most `max_timedelta` between consecutive valid samples; NaN if no such part exists (as always in the period that
starts after the last timestamp) or if the period ends inside a step longer than `max_timedelta`. -/
theorem C107_periods {power : Series} (hs : Increasing power) (hlen : 2 ≤ power.length)
    (hv : ∃ t v, ValidAt power t v) {k : Int} (hk : 0 < k) {inner : List Int} (hin : OnFrequency k inner) {g : ℚ}
    (hg : IsMedian (indexSteps power) g) (hfine : g < (28 * dayNs : Int)) {first last : Int}
    (h0 : (power.map Prod.fst).head? = some first) (hl : (power.map Prod.fst).getLast? = some last) (m : ℚ) :
    ∃ out, energyFromPowerCal power k inner (some m) .rightLabeled = .ok out ∧ (out.map Prod.fst).Pairwise (· < ·) ∧
      (∀ L v, (L, v) ∈ out ↔ ∃ x, IsPeriod k x L ∧ first < x + dayNs ∧ (∃ w, IsPeriod k w x ∧ w ≤ last) ∧
        v = if InLongStep power m L then none else total (rectContributions m x L (validRows power))) ∧
      ∀ x L v, (L, v) ∈ out → IsPeriod k x L → last ≤ x → v = none := by
  rw [isMedian_iff] at hg
  have hd : dropna power ≠ [] := by
    obtain ⟨t, v, h⟩ := hv
    exact List.ne_nil_of_mem (mem_dropna.mpr h)
  obtain ⟨hb1, hb2⟩ := head_le_last hs h0 hl
  have hab := calBefore_le_calNo hk (hb1 _ (List.mem_of_getLast? hl))
  have hmem : ∀ L v, (L, v) ∈ ((intRange (calBefore k first + 1) (calNo k last + 1 - calBefore k first).toNat).map fun q =>
      (calPoint k (q + 1), if InLongStep power m (calPoint k (q + 1)) then (none : Cell)
        else total (rectContributions m (calPoint k q) (calPoint k (q + 1)) (validRows power)))) ↔
      ∃ x, IsPeriod k x L ∧ first < x + dayNs ∧ (∃ w, IsPeriod k w x ∧ w ≤ last) ∧
        v = if InLongStep power m L then none else total (rectContributions m x L (validRows power)) := by
    intro L v
    simp only [List.mem_map, mem_intRange, isPeriod_iff hk, Prod.mk.injEq]
    constructor
    · rintro ⟨q, ⟨h1, h2⟩, rfl, rfl⟩
      refine ⟨calPoint k q, ⟨q, rfl, rfl⟩, ?_, ⟨calPoint k (q - 1), ⟨q - 1, rfl, by rw [sub_add_cancel]⟩, ?_⟩, rfl⟩
      · rw [← startDay_le_iff, ← calBefore_spec hk]; omega
      · refine le_trans ?_ (calNo_bounds hk last).1
        rw [calPoint_le hk]; omega
    · rintro ⟨x, ⟨q, rfl, rfl⟩, h1, ⟨w, ⟨p, rfl, hpq⟩, hw⟩, rfl⟩
      rw [← startDay_le_iff, ← calBefore_spec hk] at h1
      have e : q = p + 1 := le_antisymm ((calPoint_le hk).mp hpq.le) ((calPoint_le hk).mp hpq.ge)
      subst e
      have hp : p ≤ calNo k last := by
        have := (calPoint_le_iff _ _).mp hw
        have := (calPoint_lt hk).mp (lt_of_le_of_lt this (calNo_bounds hk last).2)
        omega
      exact ⟨p + 1, ⟨by omega, by omega⟩, rfl, rfl⟩
  refine ⟨_, energyCal_right hs hlen hd hk h0 hl hg (fun s h => lt_of_lt_of_le hfine (frequency_steps hk hin s h)), ?_, hmem, ?_⟩
  · rw [List.map_map, List.pairwise_map]
    exact (intRange_sorted _ _).imp fun h => (calPoint_lt hk).mpr (by omega)
  · intro x L v hm hp hx
    obtain ⟨x', hp', -, -, rfl⟩ := (hmem L v).mp hm
    obtain ⟨q, rfl, rfl⟩ := (isPeriod_iff hk _ _).mp hp
    obtain ⟨q', rfl, e⟩ := (isPeriod_iff hk _ _).mp hp'
    have e : q = q' := by
      have h1 := (calPoint_le hk).mp e.le
      have h2 := (calPoint_le hk).mp e.ge
      omega
    subst e
    rw [contributions_after]
    · simp [total]
    · intro t ht
      exact (hb2 t (keys_dropna_sub ht)).trans hx

/-- **C107 (instantaneous power).** With no missing samples and no step above the limit, if the first timestamp is not after the point of
the frequency on its day (if there is one): the energy of every reported period that does not start after the last timestamp is the
integral over the period of the broken line through the samples, continued by the last value up to the end of the last
period. -/
theorem C107_instantaneous {power : Series} (hs : Increasing power) (hlen : 2 ≤ power.length)
    (hnn : ∀ r ∈ power, r.2 ≠ none) {k : Int} (hk : 0 < k) {inner : List Int} (hin : OnFrequency k inner) {g m : ℚ}
    (hg : IsMedian (indexSteps power) g) (hfine : g < (28 * dayNs : Int)) {first last : Int}
    (h0 : (power.map Prod.fst).head? = some first) (hl : (power.map Prod.fst).getLast? = some last)
    (hgap : ∀ s ∈ indexSteps power, s ≤ m) (hfirst : ∀ x, IsStart k x → first < x + dayNs → first ≤ x) :
    ∃ out, energyFromPowerCal power k inner (some m) .instantaneous = .ok out ∧ (out.map Prod.fst).Pairwise (· < ·) ∧
      ∀ L v, (L, v) ∈ out ↔ ∃ x, IsPeriod k x L ∧ first ≤ x ∧ (∃ w, IsPeriod k w x ∧ w ≤ last) ∧
        v = if x ≤ last then some (trapIntegral x L (validRows power)) else none := by
  rw [isMedian_iff] at hg
  have hkeys := dropna_keys_eq hnn
  have hstep := steps_le hgap
  have hnl : ∀ L, ¬ InLongStep power m L := by
    rintro L ⟨⟨a, b⟩, hab, _, _, h⟩
    have := hstep a b (adjacent_zip.mpr hab)
    simp only at h; linarith
  obtain ⟨hb1, hb2⟩ := head_le_last hs h0 hl
  obtain ⟨n, hn, hn', hn1⟩ := range_pos hk (hb1 _ (List.mem_of_getLast? hl))
  have hgrid := calGrid_sorted hk first last
  have hf : ∀ e ∈ (calGrid k first last).tail, first ≤ e := by
    intro e he
    unfold calGrid at he
    rw [hn, intRange, List.map_cons, List.tail_cons] at he
    obtain ⟨q, hq, rfl⟩ := List.mem_map.mp he
    refine hfirst _ ((isStart_iff hk _).mpr ⟨q, rfl⟩) ?_
    rw [← startDay_le_iff, ← calBefore_spec hk]
    have := (mem_intRange.mp hq).1
    omega
  have h := energyCal_coarse hlen hs hg (fun s h => lt_of_lt_of_le hfine (frequency_steps hk hin s h)) (out := _) (by
    rw [aggregateCal_eq hs hk h0 hl, aggregateEdges_inst hs hgrid m h0 (by rw [hkeys]; exact h0) hf (by rw [hkeys]; exact hstep)]
    rfl)
  simp only [if_neg (hnl _), List.map_id'] at h
  have hout : ((calGrid k first last).zip (calGrid k first last).tail).tail.map (fun e : Int × Int =>
        (e.2, some (trapIntegral e.1 e.2 (dropna power)))) ++ [(calPoint k (calNo k last + 2), none)] =
      (intRange (calBefore k first + 1) (n + 1)).map fun q => (calPoint k (q + 1),
        if q ≤ calNo k last then some (trapIntegral (calPoint k q) (calPoint k (q + 1)) (validRows power)) else none) := by
    unfold calGrid
    rw [hn, bins_calGrid, intRange_snoc, List.map_append, List.map_map, List.map_singleton]
    congr 1
    · apply List.map_congr_left
      intro q hq
      have := (mem_intRange.mp hq).2
      rw [if_pos (by omega)]
      rfl
    · have e : calBefore k first + 1 + (n : Int) = calNo k last + 1 := by omega
      rw [e, if_neg (by omega), show calNo k last + 1 + 1 = calNo k last + 2 by ring]
  rw [hout] at h
  refine ⟨_, h, ?_, ?_⟩
  · rw [List.map_map, List.pairwise_map]
    exact (intRange_sorted _ _).imp fun h => (calPoint_lt hk).mpr (by omega)
  · intro L v
    have hle : ∀ q, calPoint k q ≤ last ↔ q ≤ calNo k last := by
      intro q
      constructor
      · intro h
        have := (calPoint_le_iff _ _).mp h
        have := (calPoint_lt hk).mp (lt_of_le_of_lt this (calNo_bounds hk last).2)
        omega
      · intro h
        exact ((calPoint_le hk).mpr h).trans (calNo_bounds hk last).1
    simp only [List.mem_map, mem_intRange, isPeriod_iff hk, Prod.mk.injEq]
    constructor
    · rintro ⟨q, ⟨h1, h2⟩, rfl, rfl⟩
      refine ⟨calPoint k q, ⟨q, rfl, rfl⟩, ?_, ⟨calPoint k (q - 1), ⟨q - 1, rfl, by rw [sub_add_cancel]⟩, ?_⟩, ?_⟩
      · refine hfirst _ ((isStart_iff hk _).mpr ⟨q, rfl⟩) ?_
        rw [← startDay_le_iff, ← calBefore_spec hk]; omega
      · rw [hle]; omega
      · simp only [hle]
    · rintro ⟨x, ⟨q, rfl, rfl⟩, h1, ⟨w, ⟨p, rfl, hpq⟩, hw⟩, rfl⟩
      have h1 : first < calPoint k q + dayNs := by have := dayNs_pos; omega
      rw [← startDay_le_iff, ← calBefore_spec hk] at h1
      have e : q = p + 1 := le_antisymm ((calPoint_le hk).mp hpq.le) ((calPoint_le hk).mp hpq.ge)
      subst e
      have hp := (hle p).mp hw
      exact ⟨p + 1, ⟨by omega, by omega⟩, rfl, by simp only [hle]⟩

theorem sum_contributions_points (m : ℚ) (d : List (Int × ℚ)) {P : Int → Int} (hP : ∀ q, P q ≤ P (q + 1)) (n : Nat) :
    ∀ b : Int, P b ≤ P (b + n) ∧ ((intRange b n).map fun q => (rectContributions m (P q) (P (q + 1)) d).sum).sum =
      (rectContributions m (P b) (P (b + n)) d).sum := by
  induction n with
  | zero => intro b; simp [intRange, rectContributions_self]
  | succ n ih =>
    intro b
    obtain ⟨h1, h2⟩ := ih (b + 1)
    have e : b + 1 + (n : Int) = b + (n + 1 : Nat) := by push_cast; ring
    rw [e] at h1 h2
    refine ⟨(hP b).trans h1, ?_⟩
    rw [intRange, List.map_cons, List.sum_cons, h2, (rectContributions_add m (hP b) h1 d).1]

/-- **C107 (conservation).** Without missing samples and steps above `max_timedelta`, the energies of the calendar
periods add up to the energy of the power series without the part before the start `x0` of the first period that starts on or
after the day of the first timestamp. Nothing is missing if the day of the first timestamp is such a start. -/
theorem C107_conserved_partial {power : Series} (hs : Increasing power) (hlen : 2 ≤ power.length)
    (hnn : ∀ r ∈ power, r.2 ≠ none) {k : Int} (hk : 0 < k) {inner : List Int} (hin : OnFrequency k inner) {g m : ℚ}
    (hg : IsMedian (indexSteps power) g) (hfine : g < (28 * dayNs : Int)) {first : Int}
    (h0 : (power.map Prod.fst).head? = some first) (hgap : ∀ s ∈ indexSteps power, s ≤ m) :
    ∃ out, energyFromPowerCal power k inner (some m) .rightLabeled = .ok out ∧
      (∀ w x0, IsPeriod k w x0 → w + dayNs ≤ first → first < x0 + dayNs →
        (out.map fun r => r.2.getD 0).sum + (rectContributions m first x0 (validRows power)).sum =
          rectEnergy (validRows power)) ∧
      ((∃ x, IsStart k x ∧ x ≤ first ∧ first < x + dayNs) →
        (out.map fun r => r.2.getD 0).sum = rectEnergy (validRows power)) := by
  rw [isMedian_iff] at hg
  have hkeys := dropna_keys_eq hnn
  have hstep := steps_le hgap
  obtain ⟨last, hl⟩ : ∃ last, (power.map Prod.fst).getLast? = some last := by
    cases power with
    | nil => simp at hlen
    | cons r l => exact ⟨_, List.getLast?_eq_some_getLast (by simp)⟩
  obtain ⟨hb1, hb2⟩ := head_le_last hs h0 hl
  obtain ⟨n, hn, hn', hn1⟩ := range_pos hk (hb1 _ (List.mem_of_getLast? hl))
  have hd : dropna power ≠ [] := by
    intro h
    have : keys power = [] := by rw [← hkeys, h]; rfl
    rw [show power.map Prod.fst = keys power from rfl, this] at h0
    simp at h0
  have hnl : ∀ L, ¬ InLongStep power m L := by
    rintro L ⟨⟨a, b⟩, hab, _, _, h⟩
    have := hstep a b (adjacent_zip.mpr hab)
    simp only at h; linarith
  have hgetD : ∀ c : List ℚ, (total c).getD 0 = c.sum := by
    intro c; unfold total; split
    · next h => rw [h]; rfl
    · rfl
  have hout := energyCal_right (m := m) hs hlen hd hk h0 hl hg (fun s h => lt_of_lt_of_le hfine (frequency_steps hk hin s h))
  simp only [if_neg (hnl _)] at hout
  refine ⟨_, hout, ?_⟩
  rw [List.map_map, hn1]
  have hP : ∀ q, calPoint k q ≤ calPoint k (q + 1) := fun q => (calPoint_le hk).mpr (by omega)
  obtain ⟨hle, hsum⟩ := sum_contributions_points m (validRows power) hP (n + 1) (calBefore k first + 1)
  have hcomp : ((fun r : Int × Cell => r.2.getD 0) ∘ fun q => (calPoint k (q + 1),
      total (rectContributions m (calPoint k q) (calPoint k (q + 1)) (validRows power)))) =
      fun q => (rectContributions m (calPoint k q) (calPoint k (q + 1)) (validRows power)).sum := by
    funext q; exact hgetD _
  rw [hcomp, hsum]
  have hfirstP : startDay first ≤ calPoint k (calBefore k first + 1) := (calBefore_spec hk _ _).mp (lt_add_one _)
  have hall : ∀ t ∈ keys (validRows power), first ≤ t ∧ t ≤ calPoint k (calBefore k first + 1 + (n + 1 : Nat)) := by
    intro t ht
    have ht' : t ∈ keys power := keys_dropna_sub ht
    refine ⟨hb1 t ht', (hb2 t ht').trans ((last_before hk last).le.trans ((calPoint_le hk).mpr ?_))⟩
    push_cast; omega
  have hadj : ∀ a b, Adjacent (keys (validRows power)) a b → (b : ℚ) - a ≤ m := by
    show ∀ a b, Adjacent (keys (dropna power)) a b → _
    rw [hkeys]; exact hstep
  have hcase1 : calPoint k (calBefore k first + 1) ≤ first →
      (rectContributions m (calPoint k (calBefore k first + 1)) (calPoint k (calBefore k first + 1 + (n + 1 : Nat))) (validRows power)).sum =
        rectEnergy (validRows power) := fun h =>
    contributions_all (dropna_sorted hs) (fun t ht => h.trans (hall t ht).1) (fun t ht => (hall t ht).2) hadj
  constructor
  · intro w x0 hp hw hx
    obtain ⟨q, rfl, rfl⟩ := (isPeriod_iff hk _ _).mp hp
    have e : q = calBefore k first := by
      rw [← startDay_le_iff, ← calBefore_spec hk] at hx
      have h1 : ¬ startDay first ≤ calPoint k q := by rw [startDay_le_iff]; omega
      rw [← calBefore_spec hk] at h1
      omega
    subst e
    rcases le_total (calPoint k (calBefore k first + 1)) first with h | h
    · rw [hcase1 h]
      have : rectContributions m first (calPoint k (calBefore k first + 1)) (validRows power) = [] := by
        have : ∀ (d : List (Int × ℚ)) {x y : Int}, y ≤ x → rectContributions m x y d = [] := by
          intro d x y hxy
          induction d with
          | nil => rfl
          | cons r d ih =>
            cases d with
            | nil => rfl
            | cons r' d =>
              rw [rectContributions, ih, if_neg]
              · rfl
              · rintro ⟨-, h⟩
                unfold overlap at h
                omega
        exact this _ h
      rw [this]
      simp
    · rw [add_comm, ← (rectContributions_add m h hle _).1]
      exact contributions_all (dropna_sorted hs) (fun t ht => (hall t ht).1) (fun t ht => (hall t ht).2) hadj
  · rintro ⟨x, hx, h1, h2⟩
    obtain ⟨q, rfl⟩ := (isStart_iff hk x).mp hx
    apply hcase1
    rw [← startDay_le_iff, ← calBefore_spec hk] at h2
    exact ((calPoint_le hk).mpr (by omega)).trans h1

/-- 24 W, sampled every ten days from 1 January 2020 plus `d` days -/
def exTen (d : Int) (n : Nat) : Series :=
  (List.range n).map fun k : Nat => ((dayNumber ⟨2020, 1, 1⟩ + d + 10 * (k : Int)) * dayNs, some 24)

/-- month starts of 2020 -/
def exMonths (a b : Int) : List Int := (intRange a (b + 1 - a).toNat).map fun m => dayNumber ⟨2020, m, 1⟩ * dayNs

/-- **C107 (refuted: conservation).** Data of 80 days from 16 January 2020 on, at month starts: the energies add up to 64
days' worth; the 16 days of January are not reported. -/
theorem C107_conserved_refuted :
    energyFromPowerCal (exTen 15 9) 1 (exMonths 2 4) none .rightLabeled =
      .ok [(dayNumber ⟨2020, 3, 1⟩ * dayNs, some (29 * 576)), (dayNumber ⟨2020, 4, 1⟩ * dayNs, some (31 * 576)),
        (dayNumber ⟨2020, 5, 1⟩ * dayNs, some (4 * 576)), (dayNumber ⟨2020, 6, 1⟩ * dayNs, none)] ∧
    rectEnergy (validRows (exTen 15 9)) = 80 * 576 := by
  refine ⟨?_, ?_⟩ <;> decide +kernel

-- data from 1 January on: every period is reported
example : energyFromPowerCal (exTen 0 9) 1 (exMonths 1 3) none .rightLabeled =
      .ok [(dayNumber ⟨2020, 2, 1⟩ * dayNs, some (31 * 576)), (dayNumber ⟨2020, 3, 1⟩ * dayNs, some (29 * 576)),
        (dayNumber ⟨2020, 4, 1⟩ * dayNs, some (20 * 576)), (dayNumber ⟨2020, 5, 1⟩ * dayNs, none)] := by decide +kernel
-- quarters
example : energyFromPowerCal (exTen 0 14) 3 (exMonths 1 1) none .rightLabeled =
      .ok [(dayNumber ⟨2020, 4, 1⟩ * dayNs, some (91 * 576)), (dayNumber ⟨2020, 7, 1⟩ * dayNs, some (39 * 576)),
        (dayNumber ⟨2020, 10, 1⟩ * dayNs, none)] := by decide +kernel
-- the hypotheses of `C107_periods` and `C107_conserved_partial`
example : Increasing (exTen 0 9) ∧ OnFrequency 1 (exMonths 1 3) ∧
    median (indexSteps (exTen 0 9)) = some (10 * dayNs : Int) ∧ ((10 * dayNs : Int) : ℚ) < (28 * dayNs : Int) ∧
    (∀ s ∈ indexSteps (exTen 0 9), s ≤ (10 * dayNs : Int)) ∧
    ((exTen 0 9).map Prod.fst).head? = some (dayNumber ⟨2020, 1, 1⟩ * dayNs) ∧
    ((exTen 0 9).map Prod.fst).getLast? = some (dayNumber ⟨2020, 3, 21⟩ * dayNs) ∧
    IsStart 1 (dayNumber ⟨2020, 1, 1⟩ * dayNs) := by
  refine ⟨by decide +kernel, ⟨by decide +kernel, 0, by decide +kernel⟩, by decide +kernel, by decide +kernel, by decide +kernel,
    by decide +kernel, by decide +kernel, by decide +kernel⟩

-- power rising by 24 W every ten days from 1 January on: February ends between two samples
example : energyFromPowerCal ((List.range 9).map fun k : Nat => ((dayNumber ⟨2020, 1, 1⟩ + 10 * (k : Int)) * dayNs, some (24 * (k : ℚ))))
      1 (exMonths 1 3) none .instantaneous =
    .ok [(dayNumber ⟨2020, 2, 1⟩ * dayNs, some (138384/5)), (dayNumber ⟨2020, 3, 1⟩ * dayNs, some (380016/5)),
      (dayNumber ⟨2020, 4, 1⟩ * dayNs, some 131328), (dayNumber ⟨2020, 5, 1⟩ * dayNs, none)] := by decide +kernel

end Verif
