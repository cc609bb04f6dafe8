import Verif.Spec.AvailRecover
import Verif.Props.AvailRules
import Verif.Props.AvailBand
import Verif.Props.AvailRollup
import Verif.Props.YoYRobust
import Mathlib.Data.Finset.Max

/-! # Lemmas for property C121 -/

namespace Verif
open Avail Spec

namespace Recover

variable {p : Plant} {n : Nat} {t0 f : Int} {c e0 : ℚ} {i : Input} {a : Args}

/-- the record of inverter `j` in row `k` -/
def rec (p : Plant) (k j : Nat) : Cell := if p.reports k j then some (p.power k j) else none

/-- its value with a missing record counted as zero -/
theorem rec_getD (k j : Nat) : (rec p k j).getD 0 =
    if p.reports k j && p.produces k j then p.rated j * p.weather k else 0 := by
  unfold rec Plant.power
  cases p.reports k j <;> cases p.produces k j <;> rfl

theorem fillRow_rec (k : Nat) : fillRow ((List.range p.m).map fun j : Nat => rec p k j) =
    (List.range p.m).map fun j : Nat => (rec p k j).getD 0 := by
  unfold fillRow
  rw [List.map_map]
  rfl

theorem rec_nonneg (ho : p.Observable n) {k j : Nat} (hk : k < n) (hj : j < p.m) : 0 ≤ (rec p k j).getD 0 := by
  rw [rec_getD]
  split_ifs
  · exact mul_nonneg (ho.rated j hj).le (ho.weather k hk)
  · exact le_refl _

theorem rec_le (ho : p.Observable n) {k j : Nat} (hk : k < n) (hj : j < p.m) :
    (rec p k j).getD 0 ≤ p.rated j * p.weather k := by
  rw [rec_getD]
  split_ifs
  · exact le_refl _
  · exact mul_nonneg (ho.rated j hj).le (ho.weather k hk)

/-- rows are there -/
theorem rows_pos (ho : p.Observable n) : 0 < n := by
  have := ho.majority 0 ho.pos
  rcases Nat.eq_zero_or_pos n with rfl | h
  · simp at this
  · exact h

/-- the default thresholds separate what is seen from what is not -/
theorem thresholds (hr : p.Recorded n t0 f c e0 i) (ho : p.Observable n) (ha : a.thresholds = none) :
    ∃ T : Nat → ℚ, thresholdsOf a i = (List.range p.m).map (fun j : Nat => some (T j)) ∧
      (∀ j < p.m, 0 ≤ T j) ∧
      ∀ k < n, ∀ j < p.m, (T j < (rec p k j).getD 0 ↔ p.seen k j = true) := by
  have hq : ∀ j < p.m, ∃ q : ℚ, quantile ((List.range n).map fun k : Nat => (rec p k j).getD 0) (99 / 100) = some q := by
    intro j _
    refine Option.isSome_iff_exists.mp (quantile_isSome.mpr ?_)
    have := rows_pos ho
    simp; omega
  let T : Nat → ℚ := fun j => ((quantile ((List.range n).map fun k : Nat => (rec p k j).getD 0) (99 / 100)).getD 0) / 1000
  refine ⟨T, ?_, ?_, ?_⟩
  · unfold thresholdsOf
    rw [ha, Option.getD_none]
    unfold defaultThresholds
    rw [hr.ncols]
    apply List.map_congr_left
    intro j hj
    have hj := List.mem_range.mp hj
    obtain ⟨q, hq⟩ := hq j hj
    have e : (i.subs.map fun r => (fillRow r).getD j 0) = (List.range n).map fun k : Nat => (rec p k j).getD 0 := by
      rw [hr.subs, List.map_map]
      apply List.map_congr_left
      intro k _
      have := fillRow_rec (p := p) k
      unfold rec at this
      simp only [Function.comp, this, List.getD_eq_getElem?_getD, List.getElem?_map, List.getElem?_range hj]
      rfl
    rw [e, hq]
    simp only [T, hq, Option.map_some, Option.getD_some]
  · intro j hj
    obtain ⟨q, hq⟩ := hq j hj
    simp only [T, hq, Option.getD_some]
    have : 0 ≤ q := quantile_ge hq (by norm_num) (by norm_num) fun x hx => by
      obtain ⟨k, hk, rfl⟩ := List.mem_map.mp hx
      exact rec_nonneg ho (List.mem_range.mp hk) hj
    positivity
  · intro k hk j hj
    obtain ⟨q, hq⟩ := hq j hj
    simp only [T, hq, Option.getD_some]
    have h0 : 0 ≤ q := quantile_ge hq (by norm_num) (by norm_num) fun x hx => by
      obtain ⟨k, hk, rfl⟩ := List.mem_map.mp hx
      exact rec_nonneg ho (List.mem_range.mp hk) hj
    unfold Plant.seen
    by_cases hw : 0 < p.weather k
    · have hlt : q / 1000 < p.rated j * p.weather k := by
        obtain ⟨k', hk', hmax⟩ := Finset.exists_max_image (Finset.range n) p.weather ⟨k, Finset.mem_range.mpr hk⟩
        have hle : q ≤ p.rated j * p.weather k' := quantile_le hq (by norm_num) (by norm_num) fun x hx => by
          obtain ⟨r, hr, rfl⟩ := List.mem_map.mp hx
          have hr := List.mem_range.mp hr
          exact (rec_le ho hr hj).trans (mul_le_mul_of_nonneg_left (hmax r (Finset.mem_range.mpr hr)) (ho.rated j hj).le)
        have := mul_lt_mul_of_pos_left (ho.range k hk k' (Finset.mem_range.mp hk') hw) (ho.rated j hj)
        rw [div_lt_iff₀ (by norm_num)]
        linarith
      rw [rec_getD]
      cases p.reports k j <;> cases p.produces k j <;> simp [hw, hlt] <;> linarith
    · have hw0 : p.weather k = 0 := le_antisymm (not_lt.mp hw) (ho.weather k hk)
      rw [rec_getD, hw0]
      simp
      linarith

/-- rows of the mask -/
theorem onlineRow_rec {T : Nat → ℚ} {k : Nat} (hT : ∀ j < p.m, (T j < (rec p k j).getD 0 ↔ p.seen k j = true)) :
    onlineRow ((List.range p.m).map fun j : Nat => some (T j)) ((List.range p.m).map fun j : Nat => (rec p k j).getD 0) =
      (List.range p.m).map (p.seen k) := by
  unfold onlineRow
  rw [zipWith_maps]
  apply List.map_congr_left
  intro j hj
  have := hT j (List.mem_range.mp hj)
  simp only [cellCmp]
  cases h : p.seen k j
  · rw [h] at this; simpa using this
  · rw [h] at this; simpa using this

theorem reportingRow_rec {T : Nat → ℚ} {k : Nat} (hT : ∀ j < p.m, (T j < (rec p k j).getD 0 ↔ p.seen k j = true)) :
    reportingRow ((List.range p.m).map fun j : Nat => some (T j)) ((List.range p.m).map fun j : Nat => (rec p k j).getD 0) =
      (List.range p.m).map fun j : Nat => if p.seen k j then some (p.rated j * p.weather k) else none := by
  unfold reportingRow
  rw [onlineRow_rec hT, zipWith_maps]
  apply List.map_congr_left
  intro j _
  by_cases h : p.seen k j = true
  · rw [if_pos h, if_pos h, rec_getD]
    unfold Plant.seen at h
    simp only [Bool.and_eq_true] at h
    rw [h.2, h.1.2]
    rfl
  · rw [if_neg h, if_neg h]

/-- sum of the rated powers -/
def ratedSum (p : Plant) : ℚ := ∑ j ∈ Finset.range p.m, p.rated j

theorem ratedSum_pos (ho : p.Observable n) : 0 < ratedSum p :=
  Finset.sum_pos (fun j hj => ho.rated j (Finset.mem_range.mp hj)) ⟨0, Finset.mem_range.mpr ho.pos⟩

theorem full_eq (k : Nat) : p.full k = ratedSum p * p.weather k := by
  unfold Plant.full ratedSum
  rw [Finset.sum_mul]

/-- relative size -/
def size (p : Plant) (j : Nat) : ℚ := p.rated j * p.m / ratedSum p

theorem size_pos (ho : p.Observable n) {j : Nat} (hj : j < p.m) : 0 < size p j := by
  have := ratedSum_pos ho
  have := ho.rated j hj
  have : (0 : ℚ) < p.m := by exact_mod_cast ho.pos
  unfold size
  positivity

theorem size_sum (ho : p.Observable n) : ∑ j ∈ Finset.range p.m, size p j = p.m := by
  unfold size
  rw [Finset.sum_congr rfl fun j _ => mul_div_assoc (p.rated j) _ _, ← Finset.sum_mul]
  have := (ratedSum_pos ho).ne'
  unfold ratedSum at this ⊢
  field_simp

theorem median_exact {l : List ℚ} {v : ℚ} (h : l.length < 2 * l.countP fun x => decide (x = v)) : median l = some v := by
  have hne : l ≠ [] := by rintro rfl; simp at h
  obtain ⟨m, hm⟩ := Option.isSome_iff_exists.mp (median_isSome.mpr hne)
  have := median_majority (lo := v) (hi := v) (isMedian_iff.mpr hm) (by
    refine lt_of_lt_of_le h (Nat.mul_le_mul_left 2 (List.countP_mono_left fun x _ hx => ?_))
    simp only [decide_eq_true_eq] at hx ⊢
    rw [hx]
    exact ⟨le_refl _, le_refl _⟩)
  rw [hm, le_antisymm this.2 this.1]

/-- the estimated sizes are the true ones -/
theorem sizes (hr : p.Recorded n t0 f c e0 i) (ho : p.Observable n) (ha : a.thresholds = none) (hs : a.sizes = none) :
    sizesOf a i = (List.range p.m).map fun j : Nat => some (size p j) := by
  obtain ⟨T, hT, -, hon⟩ := thresholds hr ho ha
  unfold sizesOf
  rw [hs, Option.getD_none, hT]
  unfold estimateSizes
  rw [hr.ncols]
  apply List.map_congr_left
  intro j hj
  have hj := List.mem_range.mp hj
  apply median_exact
  -- value of a row
  let V : Nat → ℚ := fun k => ((valids ((List.range p.m).map fun j : Nat => if p.seen k j then some (p.rated j * p.weather k) else none)).sum /
    (valids ((List.range p.m).map fun j : Nat => if p.seen k j then some (p.rated j * p.weather k) else none)).length)
  have hval : ∀ k < n, (normalizedRow (reportingRow ((List.range p.m).map fun j : Nat => some (T j))
      (fillRow ((List.range p.m).map fun j : Nat => rec p k j)))).getD j none =
      if p.seen k j then some (p.rated j * p.weather k / V k) else none := by
    intro k hk
    rw [fillRow_rec, reportingRow_rec (hon k hk)]
    unfold normalizedRow
    rw [List.map_map, List.getD_eq_getElem?_getD, List.getElem?_map, List.getElem?_range hj]
    simp only [Option.map_some, Option.getD_some, Function.comp]
    by_cases h : p.seen k j = true
    · rw [if_pos h, if_pos h]
      have hmem : p.rated j * p.weather k ∈ valids ((List.range p.m).map fun j : Nat => if p.seen k j then some (p.rated j * p.weather k) else none) := by
        rw [valids_map_ite]
        exact List.mem_map_of_mem (f := fun j => p.rated j * p.weather k) (List.mem_filter.mpr ⟨List.mem_range.mpr hj, h⟩)
      have hw : 0 < p.weather k := by
        unfold Plant.seen at h
        simp only [Bool.and_eq_true, decide_eq_true_eq] at h
        exact h.1.1
      have hpos : ∀ y ∈ valids ((List.range p.m).map fun j : Nat => if p.seen k j then some (p.rated j * p.weather k) else none), 0 < y := by
        rw [valids_map_ite]
        intro y hy
        obtain ⟨j', hj', rfl⟩ := List.mem_map.mp hy
        exact mul_pos (ho.rated j' (List.mem_range.mp (List.mem_filter.mp hj').1)) hw
      have hV : 0 < V k := by
        refine div_pos (List.sum_pos _ hpos (List.ne_nil_of_mem hmem)) ?_
        exact_mod_cast List.length_pos_of_mem hmem
      have hmean : mean (valids ((List.range p.m).map fun j : Nat => if p.seen k j then some (p.rated j * p.weather k) else none)) = some (V k) := by
        simp only [V]
        revert hmem
        generalize valids ((List.range p.m).map fun j : Nat => if p.seen k j then some (p.rated j * p.weather k) else none) = l
        intro hmem
        cases l with
        | nil => simp at hmem
        | cons x l => rfl
      rw [hmean]
      simp only [cellDiv, Option.bind_some, if_neg hV.ne']
    · rw [if_neg h, if_neg h]
      rfl
  have hlist : valids (i.subs.map fun r => (normalizedRow (reportingRow ((List.range p.m).map fun j : Nat => some (T j)) (fillRow r))).getD j none) =
      ((List.range n).filter fun k => p.seen k j).map fun k => p.rated j * p.weather k / V k := by
    rw [hr.subs, List.map_map, ← valids_map_ite (fun k => p.seen k j)]
    congr 1
    apply List.map_congr_left
    intro k hk
    exact hval k (List.mem_range.mp hk)
  rw [hlist, List.length_map, List.countP_map]
  refine lt_of_lt_of_le (ho.majority j hj) (Nat.mul_le_mul_left 2 ?_)
  rw [List.countP_filter, ← List.countP_eq_length_filter]
  apply List.countP_mono_left
  intro k hk hall
  unfold Plant.allSeen at hall
  rw [List.all_eq_true] at hall
  have hs := hall j (List.mem_range.mpr hj)
  rw [Bool.and_eq_true]
  refine ⟨?_, hs⟩
  have hw : 0 < p.weather k := by
    unfold Plant.seen at hs
    simp only [Bool.and_eq_true, decide_eq_true_eq] at hs
    exact hs.1.1
  have hVk : V k = ratedSum p * p.weather k / p.m := by
    simp only [V]
    rw [valids_map_ite]
    have : (List.range p.m).filter (p.seen k) = List.range p.m := List.filter_eq_self.mpr hall
    rw [this, List.length_map, List.length_range, sum_map_range, ← Finset.sum_mul]
    rfl
  simp only [Function.comp, decide_eq_true_eq, hVk, size]
  have h1 := (ratedSum_pos ho).ne'
  have h2 : (p.m : ℚ) ≠ 0 := by exact_mod_cast ho.pos.ne'
  field_simp

/-! ## the loss of a row -/

/-- the inverters of row `k` as the loss rule sees them -/
def units (p : Plant) (T : Nat → ℚ) (k : Nat) : List Sub :=
  (List.range p.m).map fun j : Nat => ⟨T j, some (size p j), rec p k j⟩

theorem sized_units {T : Nat → ℚ} {k : Nat} (hT : ∀ j < p.m, (T j < (rec p k j).getD 0 ↔ p.seen k j = true)) (b : Bool) :
    sized b (units p T k) = ((List.range p.m).filter fun j => p.seen k j == b).map
      fun j : Nat => (⟨T j, some (size p j), rec p k j⟩, size p j) := by
  unfold Spec.sized units
  rw [List.filterMap_map, ← List.filterMap_eq_map, List.filterMap_filter]
  apply List.filterMap_congr
  intro j hj
  have h := hT j (List.mem_range.mp hj)
  have hd : decide (Spec.Sub.On ⟨T j, some (size p j), rec p k j⟩) = p.seen k j := by
    have h' : Spec.Sub.On ⟨T j, some (size p j), rec p k j⟩ ↔ p.seen k j = true := h
    rw [Bool.eq_iff_iff, decide_eq_true_iff, h']
  simp only [Function.comp, Spec.Sub.sized, hd, beq_iff_eq, Option.map_some]

theorem sum_filter_range (m : Nat) (q : Nat → Bool) (g : Nat → ℚ) :
    (((List.range m).filter q).map g).sum = ∑ j ∈ Finset.range m, if q j then g j else 0 := by
  induction m with
  | zero => rfl
  | succ m ih =>
    rw [List.range_succ, List.filter_append, List.map_append, List.sum_append, ih, Finset.sum_range_succ]
    cases h : q m <;> simp [h]

theorem mean_const_map {α : Type} (l : List α) (hl : l ≠ []) (g : α → ℚ) (v : ℚ) (h : ∀ x ∈ l, g x = v) :
    (l.map g).sum / l.length = v := by
  have : l.map g = l.map fun _ => v := List.map_congr_left h
  rw [this, List.map_const', List.sum_replicate, nsmul_eq_mul]
  have : (l.length : ℚ) ≠ 0 := by
    have := List.length_pos_iff.mpr hl
    positivity
  field_simp

theorem delivered_eq (k : Nat) : p.delivered k =
    (∑ j ∈ Finset.range p.m, if p.produces k j then p.rated j else 0) * p.weather k := by
  unfold Plant.delivered Plant.power
  rw [Finset.sum_mul]
  apply Finset.sum_congr rfl
  intro j _
  split_ifs <;> simp

/-- what the rule makes of a row in which something is seen: exactly the missing power -/
theorem isLoss_units (ho : p.Observable n) {T : Nat → ℚ} {k : Nat}
    (hT : ∀ j < p.m, (T j < (rec p k j).getD 0 ↔ p.seen k j = true)) (hl : p.Lit k) {raw : ℚ}
    (h : IsLoss (units p T k) (p.delivered k) raw) : raw = p.full k - p.delivered k := by
  obtain ⟨j0, hj0, hs0⟩ := hl
  have hs0' := hs0
  unfold Plant.seen at hs0'
  simp only [Bool.and_eq_true, decide_eq_true_eq] at hs0'
  obtain ⟨⟨hw, hp0⟩, hr0⟩ := hs0'
  have hR := ratedSum_pos ho
  have hm : (0 : ℚ) < p.m := by exact_mod_cast ho.pos
  obtain ⟨V, m, ⟨hne, hV⟩, hm0, hif⟩ := h
  rw [sized_units hT] at hV hne
  have hVk : V = ratedSum p * p.weather k := by
    rw [hV, List.map_map]
    have hlen : (units p T k).length = p.m := by unfold units; simp
    rw [hlen, List.length_map]
    rw [mean_const_map _ (by simpa using hne) _ (ratedSum p * p.weather k / p.m)]
    · field_simp
    · intro j hj
      obtain ⟨hj, hs⟩ := List.mem_filter.mp hj
      have hj := List.mem_range.mp hj
      have hs : p.seen k j = true := by simpa using hs
      unfold Plant.seen at hs
      simp only [Bool.and_eq_true, decide_eq_true_eq] at hs
      simp only [Function.comp, rec_getD, hs.2, hs.1.2, Bool.and_self, if_true, size]
      have := (ho.rated j hj).ne'
      field_simp
  have hfull : p.full k = V := by rw [full_eq, hVk]
  have hVpos : 0 < V := by rw [hVk]; exact mul_pos hR hw
  set D := ∑ j ∈ Finset.range p.m, if p.produces k j then p.rated j else 0 with hD
  have hdel : p.delivered k = D * p.weather k := delivered_eq k
  have hPV : p.delivered k / V = D / ratedSum p := by
    rw [hdel, hVk]
    field_simp
  have htot : totalSize (units p T k) = p.m := by
    unfold totalSize units
    rw [List.map_map]
    have e : ((fun x : Sub => x.size.getD 0) ∘ fun j : Nat => (⟨T j, some (size p j), rec p k j⟩ : Sub)) = size p := rfl
    rw [e, sum_map_range, size_sum ho]
  have hmem : ∀ j < p.m, p.seen k j = false → m ≤ p.rated j / ratedSum p := by
    intro j hj hs
    have hin : ((⟨T j, some (size p j), rec p k j⟩ : Sub), size p j) ∈ sized false (units p T k) := by
      rw [sized_units hT]
      exact List.mem_map_of_mem (f := fun j : Nat => ((⟨T j, some (size p j), rec p k j⟩ : Sub), size p j))
        (List.mem_filter.mpr ⟨List.mem_range.mpr hj, by simp [hs]⟩)
    rcases hm0 with ⟨-, h⟩ | ⟨h, -⟩
    · have := h _ hin
      rw [htot] at this
      simp only [size] at this
      have e : p.rated j * p.m / ratedSum p / p.m = p.rated j / ratedSum p := by field_simp
      rwa [e] at this
    · rw [h] at hin
      simp at hin
  have hmpos : 0 < m := by
    rcases hm0 with ⟨⟨x, hx, rfl⟩, -⟩ | ⟨-, rfl⟩
    · rw [sized_units hT] at hx
      obtain ⟨j, hj, rfl⟩ := List.mem_map.mp hx
      rw [htot]
      exact div_pos (size_pos ho (List.mem_range.mp (List.mem_filter.mp hj).1)) hm
    · norm_num
  by_cases hall : ∀ j < p.m, p.produces k j = true
  · have hDR : D = ratedSum p := by
      rw [hD]
      exact Finset.sum_congr rfl fun j hj => if_pos (hall j (Finset.mem_range.mp hj))
    have h1 : p.delivered k / V = 1 := by rw [hPV, hDR, div_self hR.ne']
    rw [if_neg (by rw [h1]; rintro ⟨-, h⟩; linarith)] at hif
    rw [hif, hfull, hVk, hdel, hDR]
    ring
  · push Not at hall
    obtain ⟨j1, hj1, hn1⟩ := hall
    have hn1 : p.produces k j1 = false := by simpa using hn1
    have hs1 : p.seen k j1 = false := by unfold Plant.seen; rw [hn1]; simp
    have hDle : D ≤ ratedSum p - p.rated j1 := by
      have : ratedSum p = (∑ j ∈ Finset.range p.m, if p.produces k j then p.rated j else 0) +
          ∑ j ∈ Finset.range p.m, if p.produces k j then 0 else p.rated j := by
        rw [← Finset.sum_add_distrib]
        exact Finset.sum_congr rfl fun j _ => by split_ifs <;> simp
      have h2 : p.rated j1 ≤ ∑ j ∈ Finset.range p.m, if p.produces k j then 0 else p.rated j := by
        refine le_trans (le_of_eq ?_) (Finset.single_le_sum (f := fun j => if p.produces k j then 0 else p.rated j)
          (fun j hj => ?_) (Finset.mem_range.mpr hj1))
        · simp [hn1]
        · split_ifs
          · exact le_refl _
          · exact (ho.rated j (Finset.mem_range.mp hj)).le
      rw [hD]
      linarith
    have hDpos : 0 < D := by
      refine lt_of_lt_of_le (ho.rated j0 hj0) (le_trans (le_of_eq ?_) (Finset.single_le_sum
        (f := fun j => if p.produces k j then p.rated j else 0) (fun j hj => ?_) (Finset.mem_range.mpr hj0)))
      · simp [hp0]
      · split_ifs
        · exact (ho.rated j (Finset.mem_range.mp hj)).le
        · exact le_refl _
    have hcond : p.delivered k / V < 1 - 3 / 4 * m := by
      rw [hPV]
      have h1 := hmem j1 hj1 hs1
      have h2 : D / ratedSum p ≤ 1 - p.rated j1 / ratedSum p := by
        rw [div_le_iff₀ hR, sub_mul, div_mul_cancel₀ _ hR.ne', one_mul]
        exact hDle
      linarith
    have hex : ∃ x ∈ units p T k, ¬ x.On := by
      refine ⟨⟨T j1, some (size p j1), rec p k j1⟩, List.mem_map_of_mem (f := fun j : Nat => (⟨T j, some (size p j), rec p k j⟩ : Sub))
        (List.mem_range.mpr hj1), ?_⟩
      intro hon
      have := (hT j1 hj1).mp hon
      rw [hs1] at this
      simp at this
    rw [if_pos ⟨hex, hcond⟩] at hif
    obtain ⟨g, hg, hraw⟩ := hif
    have hshare : onlineShare (units p T k) ≤ D / ratedSum p := by
      unfold onlineShare
      rw [htot, sized_units hT, List.map_map]
      have e : (Prod.snd ∘ fun j : Nat => ((⟨T j, some (size p j), rec p k j⟩ : Sub), size p j)) = size p := rfl
      rw [e, sum_filter_range, div_le_div_iff₀ hm hR, hD, Finset.sum_mul, Finset.sum_mul]
      apply Finset.sum_le_sum
      intro j hj
      have hrj := ho.rated j (Finset.mem_range.mp hj)
      cases hs : p.seen k j
      · simp only [Bool.false_beq, Bool.not_true, Bool.false_eq_true, if_false, zero_mul]
        split_ifs <;> first | positivity | simp
      · unfold Plant.seen at hs
        simp only [Bool.and_eq_true, decide_eq_true_eq] at hs
        simp only [hs.1.2, if_true, beq_self_eq_true, size]
        field_simp
        exact le_refl _
    have hle1 : D / ratedSum p ≤ 1 := by
      rw [div_le_one hR]
      linarith [ho.rated j1 hj1]
    rw [hPV, max_eq_right hshare, min_eq_right hle1] at hg
    rw [hraw, hg, hfull, hdel, hVk]
    field_simp

/-- whether anything is seen in row `k` -/
def lit (p : Plant) (k : Nat) : Bool := (List.range p.m).any (p.seen k)

theorem lit_iff (k : Nat) : lit p k = true ↔ p.Lit k := by
  unfold lit Plant.Lit
  simp [List.any_eq_true]

/-- the loss attributed to the inverters in row `k` -/
def subLoss (p : Plant) (k : Nat) : ℚ := if lit p k then p.full k - p.delivered k else 0

theorem delivered_nonneg (ho : p.Observable n) {k : Nat} (hk : k < n) : 0 ≤ p.delivered k := by
  unfold Plant.delivered Plant.power
  apply Finset.sum_nonneg
  intro j hj
  split_ifs
  · exact mul_nonneg (ho.rated j (Finset.mem_range.mp hj)).le (ho.weather k hk)
  · exact le_refl _

theorem delivered_le_full (ho : p.Observable n) {k : Nat} (hk : k < n) : p.delivered k ≤ p.full k := by
  unfold Plant.delivered Plant.power Plant.full
  apply Finset.sum_le_sum
  intro j hj
  split_ifs
  · exact le_refl _
  · exact mul_nonneg (ho.rated j (Finset.mem_range.mp hj)).le (ho.weather k hk)

theorem mask_eq (hr : p.Recorded n t0 f c e0 i) (ho : p.Observable n) (ha : a.thresholds = none) :
    (lossSubsystem a i).mask = (List.range n).map fun k : Nat => (List.range p.m).map (p.seen k) := by
  obtain ⟨T, hT, -, hon⟩ := thresholds hr ho ha
  unfold lossSubsystem
  simp only
  rw [hT, hr.subs, List.map_map]
  apply List.map_congr_left
  intro k hk
  have := fillRow_rec (p := p) k
  unfold rec at this
  simp only [Function.comp, this]
  exact onlineRow_rec (hon k (List.mem_range.mp hk))

theorem loss_eq (hr : p.Recorded n t0 f c e0 i) (ho : p.Observable n) (ha : a.thresholds = none) (hs : a.sizes = none)
    (hlim : ∀ k < n, ∀ L : ℚ, a.limits.getD k none = some L → p.full k ≤ L) :
    (lossSubsystem a i).loss = (List.range n).map (subLoss p) := by
  obtain ⟨T, hT, hT0, hon⟩ := thresholds hr ho ha
  have hlen : i.index.length = n := by rw [hr.index]; simp
  apply List.ext_getElem?
  intro k
  by_cases hk : k < n
  · rw [List.getElem?_map, List.getElem?_range hk, Option.map_some]
    unfold subLoss
    by_cases hl : lit p k = true
    · rw [if_pos hl]
      have hl := (lit_iff k).mp hl
      unfold lossSubsystem
      simp only
      rw [List.getElem?_map, List.getElem?_range (by rw [hlen]; exact hk), Option.map_some, Option.some.injEq, hT,
        sizes hr ho ha hs]
      have hsys : i.system.getD k none = some (p.delivered k) := by
        rw [List.getD_eq_getElem?_getD, hr.meter k hk hl]; rfl
      have hsub : i.subs.getD k [] = (List.range p.m).map fun j : Nat => rec p k j := by
        rw [List.getD_eq_getElem?_getD, hr.subs, List.getElem?_map, List.getElem?_range hk]; rfl
      rw [hsys, hsub]
      have e1 : ((List.range p.m).map fun j : Nat => (some (T j) : Cell)) = (units p T k).map fun x => some x.threshold := by
        unfold units; rw [List.map_map]; rfl
      have e2 : ((List.range p.m).map fun j : Nat => (some (size p j) : Cell)) = (units p T k).map (·.size) := by
        unfold units; rw [List.map_map]; rfl
      have e3 : ((List.range p.m).map fun j : Nat => rec p k j) = (units p T k).map (·.power) := by
        unfold units; rw [List.map_map]; rfl
      rw [e1, e2, e3]
      obtain ⟨raw, hraw, he⟩ := C99_loss_rule (u := units p T k)
        (fun x hx => by
          unfold units at hx
          obtain ⟨j, hj, rfl⟩ := List.mem_map.mp hx
          exact hT0 j (List.mem_range.mp hj))
        (fun x hx s e => by
          unfold units at hx
          obtain ⟨j, hj, rfl⟩ := List.mem_map.mp hx
          simp only [Option.some.injEq] at e
          rw [← e]
          exact size_pos ho (List.mem_range.mp hj))
        (by
          obtain ⟨j, hj, hs⟩ := hl
          exact ⟨⟨T j, some (size p j), rec p k j⟩, List.mem_map_of_mem (f := fun j : Nat => (⟨T j, some (size p j), rec p k j⟩ : Sub))
            (List.mem_range.mpr hj), (hon k hk j hj).mpr hs, by simp⟩)
        (delivered_nonneg ho hk) (a.limits.getD k none)
      rw [he]
      have hraw := isLoss_units ho (hon k hk) hl hraw
      rw [hraw]
      have hlimk := hlim k hk
      cases hL : a.limits.getD k none with
      | none => rfl
      | some L =>
        simp only
        rw [if_neg]
        have := hlimk L hL
        linarith
    · rw [if_neg hl]
      apply C47_all_offline (by rw [hlen]; exact hk)
      · intro b hb
        rw [mask_eq hr ho ha, List.getD_eq_getElem?_getD, List.getElem?_map, List.getElem?_range hk, Option.map_some, Option.getD_some] at hb
        obtain ⟨j, hj, rfl⟩ := List.mem_map.mp hb
        unfold lit at hl
        rw [List.any_eq_true] at hl
        push Not at hl
        simpa using hl j hj
      · rw [hr.subs]; simpa using hk
  · have h1 : (lossSubsystem a i).loss.length = n := by
      unfold lossSubsystem
      simp [hlen]
    rw [List.getElem?_eq_none (by omega), List.getElem?_eq_none (by simp; omega)]

/-! ## the comparison with the expectation -/

theorem sound_iff (ho : p.Observable n) {k : Nat} : p.sound k = true ↔ p.Lit k ∧ p.delivered k = p.full k := by
  unfold Plant.sound
  rw [Bool.and_eq_true]
  have e : (List.range p.m).any (p.seen k) = true ↔ p.Lit k := lit_iff k
  rw [e]
  constructor
  · rintro ⟨h1, h2⟩
    refine ⟨h1, ?_⟩
    rw [List.all_eq_true] at h2
    exact Finset.sum_congr rfl fun j hj => if_pos (h2 j (List.mem_range.mpr (Finset.mem_range.mp hj)))
  · rintro ⟨h1, h2⟩
    refine ⟨h1, ?_⟩
    rw [List.all_eq_true]
    intro j hj
    have hj := List.mem_range.mp hj
    by_contra hc
    have hw : 0 < p.weather k := by
      obtain ⟨j', _, hs⟩ := h1
      unfold Plant.seen at hs
      simp only [Bool.and_eq_true, decide_eq_true_eq] at hs
      exact hs.1.1
    have : p.delivered k < p.full k := by
      unfold Plant.delivered Plant.full
      apply Finset.sum_lt_sum
      · intro r hr
        unfold Plant.power
        split_ifs
        · exact le_refl _
        · exact (mul_pos (ho.rated r (Finset.mem_range.mp hr)) hw).le
      · refine ⟨j, Finset.mem_range.mpr hj, ?_⟩
        unfold Plant.power
        rw [if_neg hc]
        exact mul_pos (ho.rated j hj) hw
    linarith

theorem lit_weather {k : Nat} (h : p.Lit k) : 0 < p.weather k := by
  obtain ⟨j', _, hs⟩ := h
  unfold Plant.seen at hs
  simp only [Bool.and_eq_true, decide_eq_true_eq] at hs
  exact hs.1.1

theorem delivered_pos (ho : p.Observable n) {k : Nat} (hk : k < n) (h : p.Lit k) : 0 < p.delivered k := by
  have hw := lit_weather h
  obtain ⟨j, hj, hs⟩ := h
  unfold Plant.seen at hs
  simp only [Bool.and_eq_true, decide_eq_true_eq] at hs
  unfold Plant.delivered
  refine lt_of_lt_of_le (mul_pos (ho.rated j hj) hw) (le_trans (le_of_eq ?_)
    (Finset.single_le_sum (f := fun j => p.power k j) (fun r hr => ?_) (Finset.mem_range.mpr hj)))
  · simp [Plant.power, hs.1.2]
  · unfold Plant.power
    split_ifs
    · exact (mul_pos (ho.rated r (Finset.mem_range.mp hr)) hw).le
    · exact le_refl _

/-- the rows the analysis compares are the sound ones -/
theorem normalRows (hr : p.Recorded n t0 f c e0 i) (ho : p.Observable n) (hc : 0 < c) :
    NormalRows i ((List.range n).map (subLoss p)) ((List.range n).filter fun k => p.sound k) := by
  refine ⟨List.Pairwise.filter _ List.pairwise_lt_range, fun k => ?_⟩
  rw [List.mem_filter, List.mem_range]
  unfold Normal
  constructor
  · rintro ⟨hk, hs⟩
    obtain ⟨hl, hd⟩ := (sound_iff ho).mp hs
    refine ⟨?_, ⟨p.delivered k, hr.meter k hk hl, delivered_pos ho hk hl⟩, c * p.weather k, ?_, mul_pos hc (lit_weather hl)⟩
    · rw [List.getElem?_map, List.getElem?_range hk]
      simp [subLoss, hd]
    · rw [hr.expected, List.getElem?_map, List.getElem?_range hk]; rfl
  · rintro ⟨h1, ⟨s, h2, hs⟩, -⟩
    have hk : k < n := by
      have := (List.getElem?_eq_some_iff.mp h2).1
      rwa [hr.systemLength] at this
    have hl : p.Lit k := by
      by_contra hn
      have := hr.noMeter k hk hn s h2
      linarith
    refine ⟨hk, (sound_iff ho).mpr ⟨hl, ?_⟩⟩
    rw [List.getElem?_map, List.getElem?_range hk] at h1
    simp only [Option.map_some, Option.some.injEq, subLoss, (lit_iff k).mpr hl, if_true] at h1
    linarith

theorem zip_regular (hr : p.Recorded n t0 f c e0 i) {v : List Cell} (hv : v.length = n) :
    i.index.zip v = regular t0 f n fun k => v.getD k none := by
  unfold regular
  rw [hr.index]
  apply List.ext_getElem
  · simp [hv]
  · intro k h1 h2
    simp only [List.length_map, List.length_range] at h2
    rw [List.getElem_zip]
    simp only [List.getElem_map, List.getElem_range]
    rw [List.getD_eq_getElem _ _ (by omega)]

theorem lookupK_regular {f : Int} (hf : 0 < f) (t : Int) (n : Nat) (c : Nat → Cell) (j : Nat) :
    lookupK (regular (t + f) f n c) (t + (j : Int) * f) = if j = 0 ∨ n < j then none else c (j - 1) := by
  unfold regular
  induction n generalizing t c j with
  | zero =>
    rcases Nat.eq_zero_or_pos j with h | h
    · rw [if_pos (Or.inl h)]; rfl
    · rw [if_pos (Or.inr h)]; rfl
  | succ n ih =>
    rw [List.range_succ_eq_map]
    simp only [List.map_cons, List.map_map, Nat.cast_zero, zero_mul, add_zero, lookupK]
    have e : (List.map ((fun k : Nat => (t + f + (k : Int) * f, c k)) ∘ Nat.succ) (List.range n)) =
        (List.range n).map fun k : Nat => (t + f + f + (k : Int) * f, c (k + 1)) := by
      apply List.map_congr_left
      intro k _
      simp only [Function.comp, Prod.mk.injEq, Nat.succ_eq_add_one, and_true]
      push_cast; ring
    rw [e]
    rcases j with _ | _ | j
    · rw [if_neg (by simp; omega), if_pos (Or.inl rfl)]
      have : ∀ (l : List Nat), lookupK (l.map fun k : Nat => (t + f + f + (k : Int) * f, c (k + 1))) (t + ((0 : Nat) : Int) * f) = none := by
        intro l
        induction l with
        | nil => rfl
        | cons a l ih =>
          rw [List.map_cons, lookupK, if_neg, ih]
          have : 0 ≤ (a : Int) * f := by positivity
          simp only [Nat.cast_zero, zero_mul, add_zero]
          omega
      exact this _
    · rw [if_pos (by push_cast; ring), if_neg (by omega)]
    · rw [if_neg (by
        have : 0 < ((j + 1 : Nat) : Int) * f := by positivity
        have e2 : t + ((j + 1 + 1 : Nat) : Int) * f = t + f + ((j + 1 : Nat) : Int) * f := by push_cast; ring
        omega)]
      have := ih (t + f) (fun k => c (k + 1)) (j + 1)
      rw [show t + ((j + 1 + 1 : Nat) : Int) * f = t + f + ((j + 1 : Nat) : Int) * f by push_cast; ring, this]
      by_cases h : n < j + 1
      · rw [if_pos (Or.inr h), if_pos (Or.inr (by omega))]
      · rw [if_neg (by omega), if_neg (by omega)]
        rfl

/-- energies of a column over regular rows -/
theorem energyOn_regular (hr : p.Recorded n t0 f c e0 i) (hf : 0 < f) (hn : 2 ≤ n) {v : List Cell} (hv : v.length = n)
    (hne : ∃ k < n, v.getD k none ≠ none) :
    energyOn i v = .ok ((List.range n).map fun k : Nat => if k = 0 then none else
      cellOp (fun _ y => y * f / nsPerHour) (v.getD (k - 1) none) (v.getD k none)) := by
  unfold energyOn
  obtain ⟨N, rfl⟩ : ∃ N, n = N + 2 := ⟨n - 2, by omega⟩
  rw [zip_regular hr hv, energy_regular hf N _ hne, hr.index]
  simp only [Except.map, Except.ok.injEq]
  rw [List.map_map]
  apply List.map_congr_left
  intro k hk
  have hk := List.mem_range.mp hk
  simp only [Function.comp]
  rw [lookupK_regular hf]
  rcases k with _ | k
  · simp
  · rw [if_neg (by omega), if_neg (by omega)]
    simp

/-- the recorded rows with the energies of the expectation -/
def fullEnergy (p : Plant) (f : Int) (k : Nat) : Cell := if k = 0 then none else some (p.full k * f / nsPerHour)

theorem mapM_ok_of {α β : Type} {g : α → Except PyErr β} {l : List α} (h : ∀ x ∈ l, ∃ y, g x = .ok y) :
    ∃ r, l.mapM g = .ok r := by
  induction l with
  | nil => exact ⟨[], rfl⟩
  | cons x l ih =>
    obtain ⟨y, hy⟩ := h x (by simp)
    obtain ⟨r, hr⟩ := ih fun z hz => h z (by simp [hz])
    refine ⟨y :: r, ?_⟩
    rw [List.mapM_cons, hy, hr]
    rfl

theorem errorTable_ok (rows : List (Cell × Cell)) {q : ℚ} (h0 : 0 ≤ q) (h1 : q ≤ 1) (ws : List Nat) :
    ∃ t, errorTable rows q ws = .ok t := by
  unfold errorTable
  obtain ⟨r, hr⟩ := mapM_ok_of (l := ws)
    (g := fun w => (quantileE (windowErrors w rows) q).map fun v => v.map fun x => ((w : ℚ), x)) (by
      intro w _
      unfold quantileE
      rw [if_neg (by rintro (h | h) <;> linarith)]
      exact ⟨_, rfl⟩)
  rw [hr]
  exact ⟨_, rfl⟩

theorem range_split {n k : Nat} (h : k + 2 < n) :
    List.range n = List.range (k + 1) ++ (k + 1) :: (k + 2) :: List.range' (k + 3) (n - (k + 3)) := by
  apply List.ext_getElem
  · simp; omega
  · intro r h1 h2
    rw [List.getElem_range]
    rcases Nat.lt_or_ge r (k + 1) with hlt | hge
    · rw [List.getElem_append_left (by simpa using hlt), List.getElem_range]
    · rw [List.getElem_append_right (by simpa using hge)]
      simp only [List.length_range]
      obtain ⟨s, rfl⟩ : ∃ s, r = k + 1 + s := ⟨r - (k + 1), by omega⟩
      have e : k + 1 + s - (k + 1) = s := by omega
      simp only [e]
      rcases s with _ | _ | s
      · rfl
      · rfl
      · simp only [List.getElem_cons_succ, List.getElem_range']
        omega

theorem interp1d_zero : ∀ {tab : List (ℚ × ℚ)}, tab ≠ [] → (∀ x ∈ tab, x.2 = 0) → ∀ x : ℚ, interp1d tab x = some 0 := by
  intro tab
  induction tab with
  | nil => intro h; exact absurd rfl h
  | cons a l ih =>
    intro _ hz x
    obtain ⟨x0, y0⟩ := a
    have hy0 : y0 = 0 := hz (x0, y0) (by simp)
    cases l with
    | nil => simp [interp1d, hy0]
    | cons b l =>
      obtain ⟨x1, y1⟩ := b
      have hy1 : y1 = 0 := hz (x1, y1) (by simp)
      have := ih (by simp) (fun z hz' => hz z (by simp [hz'])) x
      rw [interp1d, this, hy0, hy1]
      split_ifs <;> simp

/-- the comparison finds the scale of the expectation, and no error -/
theorem calibrated (hr : p.Recorded n t0 f c e0 i) (ho : p.Observable n) (hcmp : p.Comparable n) (hf : 0 < f) (hc : 0 < c)
    (hq : 0 ≤ a.qLow ∧ a.qLow ≤ 1) (hq' : 0 ≤ a.qHigh ∧ a.qHigh ≤ 1) :
    ∃ d, errorDistributions a i ((List.range n).map (subLoss p)) = .ok d ∧
      d.powerR = (List.range n).map (fun k : Nat => some (p.full k)) ∧
      d.energyR = (List.range n).map (fullEnergy p f) ∧
      (∀ x : ℚ, interp1d d.lower x = some 0) ∧ ∀ x : ℚ, interp1d d.upper x = some 0 := by
  have hnr := normalRows hr ho hc
  set rows := (List.range n).filter fun k => p.sound k with hrows
  have hlen0 : i.index.length = n := by rw [hr.index]; simp
  have hlenE : i.expected.length = n := by rw [hr.expected]; simp
  have hll : ((List.range n).map (subLoss p)).length = n := by simp
  have hml := normalMask_length (i := i) hll hr.systemLength hlenE
  have hmem : ∀ k ∈ rows, k < n ∧ p.Lit k ∧ p.delivered k = p.full k := by
    intro k hk
    rw [hrows, List.mem_filter, List.mem_range] at hk
    exact ⟨hk.1, (sound_iff ho).mp hk.2⟩
  obtain ⟨k0, hk0, hs0, hs1, hs2⟩ := hcmp.three
  have hne : rows ≠ [] := List.ne_nil_of_mem (List.mem_filter.mpr ⟨List.mem_range.mpr (by omega), hs0⟩ : k0 ∈ rows)
  have hR := ratedSum_pos ho
  -- the scaling factor
  have s1 : (valids (select (normalMask i ((List.range n).map (subLoss p))) i.expected)).sum = c * (rows.map p.weather).sum := by
    rw [select_range none (hml.trans hlenE.symm), normalRows_eq hnr (by rw [hr.systemLength, hlenE]), valids_sum_map]
    unfold totalOver
    rw [mul_comm, ← sum_map_mul_const]
    congr 1
    apply List.map_congr_left
    intro k hk
    rw [hr.expected, List.getD_eq_getElem?_getD, List.getElem?_map, List.getElem?_range (hmem k hk).1]
    simp [mul_comm]
  have s2 : (valids (select (normalMask i ((List.range n).map (subLoss p))) i.system)).sum = ratedSum p * (rows.map p.weather).sum := by
    rw [select_range none (hml.trans hr.systemLength.symm), normalRows_eq hnr le_rfl, valids_sum_map]
    unfold totalOver
    rw [mul_comm, ← sum_map_mul_const]
    congr 1
    apply List.map_congr_left
    intro k hk
    obtain ⟨h1, h2, h3⟩ := hmem k hk
    rw [List.getD_eq_getElem?_getD, hr.meter k h1 h2]
    simp [h3, full_eq, mul_comm]
  have hW : 0 < (rows.map p.weather).sum := by
    apply List.sum_pos
    · intro y hy
      obtain ⟨k, hk, rfl⟩ := List.mem_map.mp hy
      exact lit_weather (hmem k hk).2.1
    · simpa using hne
  have hpow : (i.expected.map fun x => cellDiv x (cellDiv
      (some (valids (select (normalMask i ((List.range n).map (subLoss p))) i.expected)).sum)
      (some (valids (select (normalMask i ((List.range n).map (subLoss p))) i.system)).sum))) =
      (List.range n).map fun k : Nat => some (p.full k) := by
    rw [s1, s2, hr.expected, List.map_map]
    apply List.map_congr_left
    intro k _
    have h1 : ratedSum p * (rows.map p.weather).sum ≠ 0 := (mul_pos hR hW).ne'
    have h2 : c * (rows.map p.weather).sum / (ratedSum p * (rows.map p.weather).sum) ≠ 0 :=
      (div_pos (mul_pos hc hW) (mul_pos hR hW)).ne'
    simp only [Function.comp, cellDiv, Option.bind_some, if_neg h1, if_neg h2, Option.some.injEq, full_eq]
    field_simp
  have hn2 : 2 ≤ n := by omega
  have hen : energyOn i ((List.range n).map fun k : Nat => some (p.full k)) = .ok ((List.range n).map (fullEnergy p f)) := by
    rw [energyOn_regular hr hf hn2 (by simp) ⟨0, by omega, by
      rw [List.getD_eq_getElem?_getD, List.getElem?_map, List.getElem?_range (by omega)]; simp⟩]
    congr 1
    apply List.map_congr_left
    intro k hk
    have hk := List.mem_range.mp hk
    unfold fullEnergy
    split_ifs
    · rfl
    · rw [List.getD_eq_getElem?_getD, List.getElem?_map, List.getElem?_range (by omega), List.getD_eq_getElem?_getD,
        List.getElem?_map, List.getElem?_range hk]
      rfl
  have hk0l := (sound_iff ho).mp hs0
  have hk1l := (sound_iff ho).mp hs1
  have hk2l := (sound_iff ho).mp hs2
  have hem := energyOn_regular hr hf hn2 (v := i.system) hr.systemLength ⟨k0, by omega, by
    rw [List.getD_eq_getElem?_getD, hr.meter k0 (by omega) hk0l.1]; simp⟩
  generalize hmt : ((List.range n).map fun k : Nat => if k = 0 then none else
      cellOp (fun _ y => y * (f : ℚ) / nsPerHour) (i.system.getD (k - 1) none) (i.system.getD k none)) = meter at hem
  have hmeter : ∀ k < n, meter.getD k none = if k = 0 then none else
      cellOp (fun _ y => y * (f : ℚ) / nsPerHour) (i.system.getD (k - 1) none) (i.system.getD k none) := by
    intro k hk
    rw [← hmt, List.getD_eq_getElem?_getD, List.getElem?_map, List.getElem?_range hk]
    rfl
  have hmlen : meter.length = n := by rw [← hmt]; simp
  -- success
  have hsel : (select (normalMask i ((List.range n).map (subLoss p))) (meter.zip ((List.range n).map (fullEnergy p f)))).length = rows.length := by
    rw [select_range (none, none) (by rw [hml, List.length_zip, hmlen]; simp), List.length_map,
      normalRows_eq hnr (by rw [List.length_zip, hmlen, hr.systemLength]; simp)]
  have hws : windowLengths rows.length ≠ [] := by
    have h4 : 4 ≤ rows.length := hcmp.four
    have h2 : (2 : Nat) ∈ windowLengths rows.length := (mem_windowLengths (by omega)).mpr ⟨1, by omega, by simpa using h4, rfl⟩
    exact List.ne_nil_of_mem h2
  have hex : ∃ d, errorDistributions a i ((List.range n).map (subLoss p)) = .ok d ∧
      d.powerR = (List.range n).map (fun k : Nat => some (p.full k)) ∧ d.energyR = (List.range n).map (fullEnergy p f) := by
    obtain ⟨lo, hlo⟩ := errorTable_ok (select (normalMask i ((List.range n).map (subLoss p))) (meter.zip ((List.range n).map (fullEnergy p f))))
      hq.1 hq.2 (windowLengths rows.length)
    obtain ⟨up, hup⟩ := errorTable_ok (select (normalMask i ((List.range n).map (subLoss p))) (meter.zip ((List.range n).map (fullEnergy p f))))
      hq'.1 hq'.2 (windowLengths rows.length)
    refine ⟨⟨(List.range n).map (fun k : Nat => some (p.full k)), (List.range n).map (fullEnergy p f), lo, up⟩, ?_, rfl, rfl⟩
    unfold errorDistributions
    simp only
    rw [hpow, hen]
    simp only [Except.bind]
    rw [hem]
    simp only
    rw [hsel, if_neg (by simpa using hne), if_neg hws, hlo]
    simp only
    rw [hup]
  obtain ⟨d, hd, hd1, hd2⟩ := hex
  refine ⟨d, hd, hd1, hd2, ?_⟩
  obtain ⟨meter', hm', -, hl, hu, -⟩ := C99_error_table hd (hll.trans hlen0.symm) (hr.systemLength.trans hlen0.symm)
    (hlenE.trans hlen0.symm) hnr
  rw [hem, Except.ok.injEq] at hm'
  subst hm'
  have hE : ∀ k < n, d.energyR.getD k none = fullEnergy p f k := by
    intro k hk
    rw [hd2, List.getD_eq_getElem?_getD, List.getElem?_map, List.getElem?_range hk]
    rfl
  have hpair : ∀ k ∈ rows, meter.getD k none ≠ none → meter.getD k none = d.energyR.getD k none := by
    intro k hk hne
    obtain ⟨h1, h2, h3⟩ := hmem k hk
    rw [hE k h1, hmeter k h1] at *
    unfold fullEnergy
    by_cases h0 : k = 0
    · rw [if_pos h0, if_pos h0]
    · rw [if_neg h0] at hne ⊢
      have hsys : i.system.getD k none = some (p.delivered k) := by
        rw [List.getD_eq_getElem?_getD, hr.meter k h1 h2]; rfl
      rw [hsys] at hne ⊢
      rw [if_neg h0]
      cases hc : i.system.getD (k - 1) none with
      | none => rw [hc] at hne; simp [cellOp] at hne
      | some x => simp [cellOp, h3]
  have hzero : ∀ w, ∀ x ∈ errors rows meter d.energyR w, x = 0 := by
    intro w x hx
    unfold errors at hx
    obtain ⟨s, -, h⟩ := List.mem_filterMap.mp hx
    by_cases hcnd : (∀ k ∈ (rows.drop s).take w, meter.getD k none ≠ none ∧ d.energyR.getD k none ≠ none) ∧
        totalOver d.energyR ((rows.drop s).take w) ≠ 0
    · rw [if_pos hcnd, Option.some.injEq] at h
      have : totalOver meter ((rows.drop s).take w) = totalOver d.energyR ((rows.drop s).take w) := by
        unfold totalOver
        congr 1
        apply List.map_congr_left
        intro k hk
        rw [hpair k (List.mem_of_mem_drop (List.mem_of_mem_take hk)) (hcnd.1 k hk).1]
      rw [← h, this, div_self hcnd.2, sub_self]
    · rw [if_neg hcnd] at h
      simp at h
  have hquant : ∀ q : ℚ, 0 ≤ q → q ≤ 1 → ∀ w v, IsQuantile (errors rows meter d.energyR w) q v → v = 0 := by
    intro q h0 h1 w v hv
    have := (isQuantile_iff h0 h1).mp hv
    exact le_antisymm (quantile_le this h0 h1 fun x hx => (hzero w x hx).le) (quantile_ge this h0 h1 fun x hx => (hzero w x hx).ge)
  have hwin : errors rows meter d.energyR 2 ≠ [] := by
    let s := ((List.range (k0 + 1)).filter fun k => p.sound k).length
    have hsplit : rows = (List.range (k0 + 1)).filter (fun k => p.sound k) ++ (k0 + 1) :: (k0 + 2) ::
        (List.range' (k0 + 3) (n - (k0 + 3))).filter fun k => p.sound k := by
      rw [hrows, range_split hk0, List.filter_append, List.filter_cons_of_pos hs1, List.filter_cons_of_pos hs2]
    have hdrop : (rows.drop s).take 2 = [k0 + 1, k0 + 2] := by
      rw [hsplit, List.drop_left]
      rfl
    have hslen : s < rows.length + 1 - 2 := by
      rw [hsplit]
      simp only [List.length_append, List.length_cons, s]
      omega
    have hv : ∀ k, (k = k0 + 1 ∨ k = k0 + 2) → meter.getD k none ≠ none ∧ d.energyR.getD k none ≠ none ∧
        0 < (d.energyR.getD k none).getD 0 := by
      intro k hk
      have hkn : k < n := by omega
      have hl1 : p.Lit k := by rcases hk with rfl | rfl; exacts [hk1l.1, hk2l.1]
      have hl0 : p.Lit (k - 1) := by
        rcases hk with rfl | rfl
        · exact hk0l.1
        · exact hk1l.1
      have hf' : (0 : ℚ) < f := by exact_mod_cast hf
      have hnn : (0 : ℚ) < nsPerHour := by norm_num [nsPerHour]
      have hfull : 0 < p.full k := lt_of_lt_of_le (delivered_pos ho hkn hl1) (delivered_le_full ho hkn)
      refine ⟨?_, ?_, ?_⟩
      · rw [hmeter k hkn, if_neg (by omega)]
        have e1 : i.system.getD k none = some (p.delivered k) := by
          rw [List.getD_eq_getElem?_getD, hr.meter k hkn hl1]; rfl
        have e2 : i.system.getD (k - 1) none = some (p.delivered (k - 1)) := by
          rw [List.getD_eq_getElem?_getD, hr.meter (k - 1) (by omega) hl0]; rfl
        rw [e1, e2]
        simp [cellOp]
      · rw [hE k hkn]
        unfold fullEnergy
        rw [if_neg (by omega)]
        simp
      · rw [hE k hkn]
        unfold fullEnergy
        rw [if_neg (by omega), Option.getD_some]
        positivity
    have hin : (totalOver meter [k0 + 1, k0 + 2] / totalOver d.energyR [k0 + 1, k0 + 2] - 1) ∈ errors rows meter d.energyR 2 := by
      unfold errors
      refine List.mem_filterMap.mpr ⟨s, List.mem_range.mpr hslen, ?_⟩
      rw [hdrop, if_pos]
      refine ⟨fun k hk => ?_, ?_⟩
      · have := hv k (by simpa using hk)
        exact ⟨this.1, this.2.1⟩
      · have h1 := (hv (k0 + 1) (Or.inl rfl)).2.2
        have h2 := (hv (k0 + 2) (Or.inr rfl)).2.2
        have : totalOver d.energyR [k0 + 1, k0 + 2] = (d.energyR.getD (k0 + 1) none).getD 0 + (d.energyR.getD (k0 + 2) none).getD 0 := by
          simp [totalOver]
        rw [this]
        linarith
    exact List.ne_nil_of_mem hin
  have hnonempty : ∀ q : ℚ, 0 ≤ q → q ≤ 1 → ∃ v, IsQuantile (errors rows meter d.energyR (2 ^ 1)) q v := by
    intro q h0 h1
    obtain ⟨v, hv⟩ := Option.isSome_iff_exists.mp (quantile_isSome (q := q).mpr hwin)
    exact ⟨v, (isQuantile_iff h0 h1).mpr hv⟩
  have h4 : 2 ^ (1 + 1) ≤ rows.length := hcmp.four
  constructor
  · intro x
    obtain ⟨v, hv⟩ := hnonempty a.qLow hq.1 hq.2
    refine interp1d_zero (List.ne_nil_of_mem ((hl (2 ^ 1) v).mpr ⟨1, le_rfl, h4, rfl, hv⟩)) (fun y hy => ?_) x
    obtain ⟨j, -, -, -, hv⟩ := (hl y.1 y.2).mp hy
    exact hquant _ hq.1 hq.2 _ _ hv
  · intro x
    obtain ⟨v, hv⟩ := hnonempty a.qHigh hq'.1 hq'.2
    refine interp1d_zero (List.ne_nil_of_mem ((hu (2 ^ 1) v).mpr ⟨1, le_rfl, h4, rfl, hv⟩)) (fun y hy => ?_) x
    obtain ⟨j, -, -, -, hv⟩ := (hu y.1 y.2).mp hy
    exact hquant _ hq'.1 hq'.2 _ _ hv

/-! ## outages of the whole plant -/

/-- the mask of the records -/
def seenRows (p : Plant) (n : Nat) : List (List Bool) := (List.range n).map fun k : Nat => (List.range p.m).map (p.seen k)

theorem daylight_iff (hr : p.Recorded n t0 f c e0 i) (hc : 0 < c) {k : Nat} :
    Daylight i.expected k ↔ k < n ∧ 0 < p.weather k := by
  unfold Daylight
  rw [hr.expected]
  constructor
  · rintro ⟨x, hx, h0⟩
    have hk : k < n := by simpa using (List.getElem?_eq_some_iff.mp hx).1
    rw [List.getElem?_map, List.getElem?_range hk] at hx
    simp only [Option.map_some, Option.some.injEq] at hx
    rw [← hx] at h0
    exact ⟨hk, (mul_pos_iff_of_pos_left hc).mp h0⟩
  · rintro ⟨hk, hw⟩
    refine ⟨c * p.weather k, ?_, mul_pos hc hw⟩
    rw [List.getElem?_map, List.getElem?_range hk]
    rfl

theorem allOff_iff {k : Nat} (hk : k < n) : AllOff (seenRows p n) k ↔ ¬ p.Lit k := by
  unfold AllOff seenRows Plant.Lit
  rw [List.getElem?_map, List.getElem?_range hk]
  simp only [Option.map_some, Option.some.injEq, exists_eq_left', List.mem_map, List.mem_range]
  push Not
  constructor
  · intro h j hj hs
    have := h _ ⟨j, hj, rfl⟩
    rw [hs] at this
    simp at this
  · rintro h b ⟨j, hj, rfl⟩
    simpa using h j hj

/-- a dark row lies in an outage, and in an outage nothing is seen -/
theorem dark_inOutage (hr : p.Recorded n t0 f c e0 i) (hc : 0 < c) {k : Nat} (hk : k < n) (hd : p.Dark k) :
    InOutage i.expected (seenRows p n) k :=
  Or.inl ⟨k, le_rfl, (daylight_iff hr hc).mpr ⟨hk, hd.1⟩, (allOff_iff hk).mpr hd.2, fun m h1 h2 => by omega⟩

theorem inOutage_not_lit (hr : p.Recorded n t0 f c e0 i) (hc : 0 < c) {k : Nat} (hkn : k < n)
    (h : InOutage i.expected (seenRows p n) k) : ¬ p.Lit k := by
  intro hl
  have hw := lit_weather hl
  rcases h with ⟨j, hj, hd, ho, hm⟩ | ⟨j, hj, hd, ho, hm⟩
  · have hjn := ((daylight_iff hr hc).mp hd).1
    rcases Nat.lt_or_eq_of_le hj with hlt | rfl
    · exact hm k hlt le_rfl ((daylight_iff hr hc).mpr ⟨hkn, hw⟩)
    · exact (allOff_iff hjn).mp ho hl
  · have hjn := ((daylight_iff hr hc).mp hd).1
    rcases Nat.lt_or_eq_of_le hj with hlt | rfl
    · exact hm k le_rfl hlt ((daylight_iff hr hc).mpr ⟨by omega, hw⟩)
    · exact (allOff_iff hjn).mp ho hl

/-- a row of an outage has a dark row next to it, with only outage rows between -/
theorem inOutage_dark (hr : p.Recorded n t0 f c e0 i) (hc : 0 < c) {s e k : Nat}
    (hrun : MaxRun (InOutage i.expected (seenRows p n)) n s e) (h1 : s ≤ k) (h2 : k ≤ e) :
    ∃ j, s ≤ j ∧ j ≤ e ∧ p.Dark j := by
  obtain ⟨hse, hen, hin, hs, he⟩ := hrun
  rcases hin k h1 h2 with ⟨j, hj, hd, ho, hm⟩ | ⟨j, hj, hd, ho, hm⟩
  · obtain ⟨hjn, hw⟩ := (daylight_iff hr hc).mp hd
    refine ⟨j, ?_, by omega, hw, (allOff_iff hjn).mp ho⟩
    by_contra hlt
    refine hs (s - 1) (by omega) (Or.inl ⟨j, by omega, hd, ho, fun m g1 g2 => hm m g1 (by omega)⟩)
  · obtain ⟨hjn, hw⟩ := (daylight_iff hr hc).mp hd
    refine ⟨j, by omega, ?_, hw, (allOff_iff hjn).mp ho⟩
    by_contra hlt
    refine he (by omega) (Or.inr ⟨j, by omega, hd, ho, fun m g1 g2 => hm m (by omega) g2⟩)

/-- a row with a property lies in a maximal run of such rows -/
theorem exists_run {P : Nat → Prop} {n k : Nat} (h : P k) (hk : k < n) :
    ∃ s e, s ≤ k ∧ k ≤ e ∧ MaxRun P n s e := by
  classical
  -- first row
  have hdown : ∀ k, P k → ∃ s ≤ k, (∀ r, s ≤ r → r ≤ k → P r) ∧ ∀ j, s = j + 1 → ¬ P j := by
    intro k
    induction k with
    | zero => intro h; exact ⟨0, le_rfl, fun r h1 h2 => by rw [show r = 0 by omega]; exact h, fun j hj => by omega⟩
    | succ k ih =>
      intro h
      by_cases hp : P k
      · obtain ⟨s, hs, h1, h2⟩ := ih hp
        refine ⟨s, by omega, fun r g1 g2 => ?_, h2⟩
        rcases Nat.lt_or_eq_of_le g2 with g | rfl
        · exact h1 r g1 (by omega)
        · exact h
      · exact ⟨k + 1, le_rfl, fun r h1 h2 => by rw [show r = k + 1 by omega]; exact h, fun j hj => by
          rw [show j = k by omega]; exact hp⟩
  have hup : ∀ m k, n - k = m → k < n → P k → ∃ e, k ≤ e ∧ e < n ∧ (∀ r, k ≤ r → r ≤ e → P r) ∧ (e + 1 < n → ¬ P (e + 1)) := by
    intro m
    induction m with
    | zero => intro k hm hk _; omega
    | succ m ih =>
      intro k hm hk h
      by_cases hp : k + 1 < n ∧ P (k + 1)
      · obtain ⟨e, h1, h2, h3, h4⟩ := ih (k + 1) (by omega) hp.1 hp.2
        refine ⟨e, by omega, h2, fun r g1 g2 => ?_, h4⟩
        rcases Nat.lt_or_eq_of_le g1 with g | rfl
        · exact h3 r (by omega) g2
        · exact h
      · exact ⟨k, le_rfl, hk, fun r h1 h2 => by rw [show r = k by omega]; exact h, fun g1 g2 => hp ⟨g1, g2⟩⟩
  obtain ⟨s, hs, h1, h2⟩ := hdown k h
  obtain ⟨e, he, hen, h3, h4⟩ := hup _ k rfl hk h
  refine ⟨s, e, hs, he, by omega, hen, fun r g1 g2 => ?_, h2, h4⟩
  rcases Nat.le_total r k with g | g
  · exact h1 r g1 g
  · exact h3 r g g2

theorem inOutage_zero (hr : p.Recorded n t0 f c e0 i) (hc : 0 < c)
    (hfirst : ∃ k < n, p.Lit k ∧ ∀ r < k, p.weather r = 0) : ¬ InOutage i.expected (seenRows p n) 0 := by
  obtain ⟨k0, hk0, hl, hz⟩ := hfirst
  have key : ∀ j, Daylight i.expected j → AllOff (seenRows p n) j → (∀ m, m < j → ¬ Daylight i.expected m) → False := by
    intro j hd ho hm
    obtain ⟨hjn, hw⟩ := (daylight_iff hr hc).mp hd
    have hn := (allOff_iff hjn).mp ho
    rcases Nat.lt_trichotomy k0 j with g | g | g
    · exact hm k0 g ((daylight_iff hr hc).mpr ⟨hk0, lit_weather hl⟩)
    · rw [g] at hl; exact hn hl
    · rw [hz j g] at hw; exact lt_irrefl _ hw
  rintro (⟨j, hj, hd, ho, hm⟩ | ⟨j, hj, hd, ho, hm⟩)
  · exact key j hd ho fun m g => by omega
  · exact key j hd ho fun m g => hm m (Nat.zero_le _) g

theorem slice_map {α : Type} (g : Nat → α) {n s e : Nat} (hse : s ≤ e) (hen : e < n) :
    slice ((List.range n).map g) s e = (List.range (e - s + 1)).map fun k => g (s + k) := by
  unfold slice
  apply List.ext_getElem
  · simp; omega
  · intro k h1 h2
    simp

/-- the records of the outages -/
theorem outages (hr : p.Recorded n t0 f c e0 i) (ho : p.Observable n) (hf : 0 < f) (hc : 0 < c) {d : ErrorDist}
    (hd1 : d.energyR = (List.range n).map (fullEnergy p f)) (hd2 : ∀ x : ℚ, interp1d d.lower x = some 0)
    (hd3 : ∀ x : ℚ, interp1d d.upper x = some 0) (hfirst : ∃ k < n, p.Lit k ∧ ∀ r < k, p.weather r = 0) :
    ∃ outs, outageInfo i (seenRows p n) d = .ok outs ∧
      (∀ s e, (∃ o ∈ outs, o.first = s ∧ o.last = e) ↔ MaxRun (InOutage i.expected (seenRows p n)) n s e) ∧
      outs.Pairwise (fun o o' => o.last + 1 < o'.first) ∧
      ∀ o ∈ outs, 0 < o.first ∧ o.loss = some (p.lostEnergy f o.first o.last) ∧
        (o.type = .comms ↔ p.lostEnergy f o.first o.last = 0) ∧
        (o.type = .real ↔ 0 < p.lostEnergy f o.first o.last) := by
  have hlen : (seenRows p n).length = n := by unfold seenRows; simp
  have hlen' : (seenRows p n).length = i.expected.length := by rw [hlen, hr.expected]; simp
  obtain ⟨outs, houts⟩ : ∃ outs, outageInfo i (seenRows p n) d = .ok outs := by
    unfold outageInfo
    apply mapM_ok_of
    intro x _
    unfold outageRecord interpE
    simp only
    rw [hd2, hd3]
    exact ⟨_, rfl⟩
  obtain ⟨hruns, hpw⟩ := C48_maximal_runs_partial hlen' houts
    ⟨0, by rw [hlen]; exact rows_pos ho, inOutage_zero hr hc hfirst⟩
  rw [hlen] at hruns
  refine ⟨outs, houts, hruns, hpw, fun o hoo => ?_⟩
  obtain ⟨hse, hen, hin, -, -⟩ := (hruns o.first o.last).mp ⟨o, hoo, rfl, rfl⟩
  have hpos : 0 < o.first := by
    rcases Nat.eq_zero_or_pos o.first with h | h
    · exact absurd (h ▸ hin o.first le_rfl hse) (inOutage_zero hr hc hfirst)
    · exact h
  obtain ⟨hes, hee, hexp⟩ := C49_meter_readings houts hoo hpos
  obtain ⟨-, -, -, hlo, -, -, -, -, -, hci, -⟩ := outageRecord_ok (outageInfo_mem houts hoo)
  rw [hd2, Option.some.injEq] at hlo
  rw [← hlo, add_zero, one_mul] at hci
  have hE : o.expected = ∑ k ∈ Finset.range (o.last - o.first + 1), p.full (o.first + k) * f / nsPerHour := by
    rw [hexp]
    have e1 : (d.energyR.drop o.first).take (o.last - o.first + 1) = slice d.energyR o.first o.last := rfl
    rw [e1, hd1, slice_map _ hse hen]
    have e2 : ((List.range (o.last - o.first + 1)).map fun k => fullEnergy p f (o.first + k)) =
        (List.range (o.last - o.first + 1)).map fun k => some (p.full (o.first + k) * f / nsPerHour) := by
      apply List.map_congr_left
      intro k _
      unfold fullEnergy
      rw [if_neg (by omega)]
    rw [e2]
    change (valids _).sum = _
    rw [valids_range, sum_map_range]
  have hst : o.energyStart = some (p.counter e0 f (o.first - 1)) := by
    rw [hes, hr.cum, List.getD_eq_getElem?_getD, List.getElem?_map, List.getElem?_range (by omega)]
    rfl
  have hed : o.energyEnd = some (p.counter e0 f o.last) := by
    rw [hee, hr.cum, List.getD_eq_getElem?_getD, List.getElem?_map, List.getElem?_range hen]
    rfl
  have hdiff : p.counter e0 f o.last - p.counter e0 f (o.first - 1) =
      ∑ k ∈ Finset.range (o.last - o.first + 1), p.delivered (o.first + k) * f / nsPerHour := by
    unfold Plant.counter
    have e : o.last = (o.first - 1) + (o.last - o.first + 1) := by omega
    have e2 : ∑ r ∈ Finset.range o.last, p.delivered (r + 1) * f / nsPerHour =
        ∑ r ∈ Finset.range ((o.first - 1) + (o.last - o.first + 1)), p.delivered (r + 1) * f / nsPerHour := by rw [← e]
    rw [e2, Finset.sum_range_add]
    have : ∀ x, o.first - 1 + x + 1 = o.first + x := fun x => by omega
    simp only [this]
    ring
  have hlost : p.lostEnergy f o.first o.last = o.expected - (p.counter e0 f o.last - p.counter e0 f (o.first - 1)) := by
    rw [hE, hdiff, ← Finset.sum_sub_distrib]
    unfold Plant.lostEnergy Plant.lost
    apply Finset.sum_congr rfl
    intro k _
    ring
  have hf' : (0 : ℚ) < f := by exact_mod_cast hf
  have hnn : (0 : ℚ) < nsPerHour := by norm_num [nsPerHour]
  have hdn : 0 ≤ p.counter e0 f o.last - p.counter e0 f (o.first - 1) := by
    rw [hdiff]
    apply Finset.sum_nonneg
    intro k hk
    have hk := Finset.mem_range.mp hk
    have := delivered_nonneg ho (k := o.first + k) (by omega)
    positivity
  have hle : p.counter e0 f o.last - p.counter e0 f (o.first - 1) ≤ o.expected := by
    rw [hE, hdiff]
    apply Finset.sum_le_sum
    intro k hk
    have hk := Finset.mem_range.mp hk
    have := delivered_le_full ho (k := o.first + k) (by omega)
    rw [div_le_div_iff_of_pos_right hnn]
    exact mul_le_mul_of_nonneg_right this hf'.le
  have h5 : -(5 / 100) * o.expected ≤ p.counter e0 f o.last - p.counter e0 f (o.first - 1) := by
    have : 0 ≤ o.expected := hdn.trans hle
    linarith
  obtain ⟨-, hreal, hcomms, -, hcl, hrl, -⟩ := C49_classification houts hoo
  have hR : o.type = .real ↔ 0 < p.lostEnergy f o.first o.last := by
    rw [hreal, hlost, hci]
    constructor
    · rintro ⟨x, y, hx, hy, -, hlt⟩
      rw [hst, Option.some.injEq] at hx
      rw [hed, Option.some.injEq] at hy
      rw [hx, hy]
      linarith
    · intro h
      exact ⟨_, _, hst, hed, h5, by linarith⟩
  have hC : o.type = .comms ↔ p.lostEnergy f o.first o.last = 0 := by
    rw [hcomms, hlost, hci]
    constructor
    · rintro ⟨x, y, hx, hy, -, hlt⟩
      rw [hst, Option.some.injEq] at hx
      rw [hed, Option.some.injEq] at hy
      rw [hx, hy]
      rw [hx, hy] at hle
      linarith
    · intro h
      exact ⟨_, _, hst, hed, h5, by linarith⟩
  refine ⟨hpos, ?_, hC, hR⟩
  rcases eq_or_lt_of_le (show 0 ≤ p.lostEnergy f o.first o.last by rw [hlost]; linarith) with h | h
  · rw [hcl (hC.mpr h.symm), ← h]
  · obtain ⟨x, y, hx, hy, hl⟩ := hrl (hR.mpr h)
    rw [hst, Option.some.injEq] at hx
    rw [hed, Option.some.injEq] at hy
    rw [hl, hlost, hx, hy]

/-! ## the whole run, when the plant never fails as a whole -/

theorem fold_ok {acc : SystemLoss} : ∀ {outs : List Outage},
    (∀ o ∈ outs, ∃ se, energyFromPower (slice (i.index.zip i.expected) o.first o.last) none none .rightLabeled i.freq = .ok se) →
    ∃ sl, outs.foldlM (fillOutage i) acc = .ok sl := by
  intro outs
  induction outs generalizing acc with
  | nil => intro _; exact ⟨acc, rfl⟩
  | cons o outs ih =>
    intro h
    obtain ⟨se, hse⟩ := h o (by simp)
    have hx : ∃ acc', fillOutage i acc o = .ok acc' := by
      unfold fillOutage
      simp only
      rw [hse]
      exact ⟨_, rfl⟩
    obtain ⟨acc', h'⟩ := hx
    rw [List.foldlM_cons, h']
    exact ih fun o' ho' => h o' (by simp [ho'])

theorem fill_length {outs : List Outage} : ∀ {acc sl : SystemLoss}, outs.foldlM (fillOutage i) acc = .ok sl →
    sl.corrected.length = acc.corrected.length := by
  induction outs with
  | nil => intro acc sl h; rw [List.foldlM_nil] at h; cases h; rfl
  | cons o outs ih =>
    intro acc sl h
    rw [List.foldlM_cons] at h
    cases he : fillOutage i acc o with
    | error e => rw [he] at h; cases h
    | ok acc' =>
      rw [he] at h
      rw [ih h]
      unfold fillOutage at he
      simp only at he
      cases hse : energyFromPower (slice (i.index.zip i.expected) o.first o.last) none none .rightLabeled i.freq with
      | error e => rw [hse] at he; cases he
      | ok se =>
        rw [hse] at he
        cases he
        simp

/-- without failures of the whole plant the outages add nothing -/
theorem systemLoss_zero (hr : p.Recorded n t0 f c e0 i) (ho : p.Observable n) (hf : 0 < f) (hc : 0 < c) {outs : List Outage}
    (hruns : ∀ s e, (∃ o ∈ outs, o.first = s ∧ o.last = e) ↔ MaxRun (InOutage i.expected (seenRows p n)) n s e)
    (hpw : outs.Pairwise (fun o o' => o.last + 1 < o'.first)) (hloss : ∀ o ∈ outs, o.loss = some 0)
    (hlong : ∀ k < n, p.Dark k → ∃ k' < n, p.Dark k' ∧ (k' = k + 1 ∨ k = k' + 1)) :
    ∃ sl, systemLoss i outs = .ok sl ∧ (sl.loss = (List.range n).map fun _ => some 0) ∧ sl.corrected.length = n ∧
      ∀ k < n, p.Lit k → sl.corrected[k]? = some (some (p.counter e0 f k)) := by
  have hlenE : i.expected.length = n := by rw [hr.expected]; simp
  have hE : ∀ k < n, i.expected[k]? = some (some (c * p.weather k)) := by
    intro k hk
    rw [hr.expected, List.getElem?_map, List.getElem?_range hk]; rfl
  -- an outage has a dark row after its first
  have hdark : ∀ o ∈ outs, ∃ j, o.first < j ∧ j ≤ o.last ∧ p.Dark j := by
    intro o hoo
    have hrun := (hruns o.first o.last).mp ⟨o, hoo, rfl, rfl⟩
    obtain ⟨j, h1, h2, hd⟩ := inOutage_dark hr hc hrun le_rfl hrun.1
    obtain ⟨hse, hen, hin, hs, he⟩ := hrun
    rcases Nat.lt_or_eq_of_le h1 with hlt | heq
    · exact ⟨j, hlt, h2, hd⟩
    · obtain ⟨j', hj', hd', hor⟩ := hlong j (by omega) hd
      have hin' := dark_inOutage hr hc hj' hd'
      rcases hor with rfl | rfl
      · refine ⟨j + 1, by omega, ?_, hd'⟩
        by_contra hgt
        have : j = o.last := by omega
        rw [this] at hin'
        exact he (by omega) hin'
      · exact absurd hin' (hs j' heq)
  have hEn : ∀ o ∈ outs, energyFromPower (slice (i.index.zip i.expected) o.first o.last) none none .rightLabeled i.freq =
      .ok ((List.range (o.last - o.first)).map fun k : Nat =>
        (t0 + ((o.first : Int) + 1) * f + (k : Int) * f, some (c * p.weather (o.first + 1 + k) * f / nsPerHour))) := by
    intro o hoo
    obtain ⟨j, h1, h2, -⟩ := hdark o hoo
    obtain ⟨-, hen, -⟩ := (hruns o.first o.last).mp ⟨o, hoo, rfl, rfl⟩
    exact outage_energy hf hr.index hlenE hE (by omega) hen _
  obtain ⟨sl, hsl⟩ := fold_ok (i := i) (acc := ⟨i.index.map fun _ => some 0, i.cum⟩) (outs := outs) fun o hoo => ⟨_, hEn o hoo⟩
  refine ⟨sl, hsl, ?_, by rw [fill_length hsl, hr.cum]; simp, ?_⟩
  rotate_left
  · intro k hk hl
    rw [((fill_loop hpw (fun o hoo => ((hruns o.first o.last).mp ⟨o, hoo, rfl, rfl⟩).1) hsl).1 k fun o hoo hin => ?_).2,
      hr.cum, List.getElem?_map, List.getElem?_range hk, Option.map_some]
    obtain ⟨-, hen, hall, -⟩ := (hruns o.first o.last).mp ⟨o, hoo, rfl, rfl⟩
    exact inOutage_not_lit hr hc hk (hall k hin.1 hin.2) hl
  obtain ⟨hout, hinn⟩ := fill_loop hpw (fun o hoo => ((hruns o.first o.last).mp ⟨o, hoo, rfl, rfl⟩).1) hsl
  have hacc : ∀ k : Nat, (i.index.map fun _ => (some 0 : Cell))[k]? = ((List.range n).map fun _ => (some 0 : Cell))[k]? := by
    intro k
    rw [hr.index, List.map_map]
    rfl
  apply List.ext_getElem?
  intro k
  by_cases hex : ∃ o ∈ outs, o.first ≤ k ∧ k ≤ o.last
  · obtain ⟨o, hoo, h1, h2⟩ := hex
    obtain ⟨se, hse, hk⟩ := hinn o hoo
    rw [hEn o hoo, Except.ok.injEq] at hse
    obtain ⟨hse', hen, -⟩ := (hruns o.first o.last).mp ⟨o, hoo, rfl, rfl⟩
    rw [(hk k h1 h2).1, hacc, List.getElem?_map, List.getElem?_range (by omega), List.getD_eq_getElem?_getD, hE k (by omega), hloss o hoo]
    have hf' : (0 : ℚ) < f := by exact_mod_cast hf
    have hnn : (0 : ℚ) < nsPerHour := by norm_num [nsPerHour]
    have htot : 0 < (valids (se.map Prod.snd)).sum := by
      obtain ⟨j, g1, g2, hd⟩ := hdark o hoo
      have e3 : se.map Prod.snd = (List.range (o.last - o.first)).map fun k : Nat => some (c * p.weather (o.first + 1 + k) * f / nsPerHour) := by
        rw [← hse, List.map_map]; rfl
      rw [e3, valids_range, sum_map_range]
      have hj : j - (o.first + 1) ∈ Finset.range (o.last - o.first) := Finset.mem_range.mpr (by omega)
      have hterm : 0 < c * p.weather (o.first + 1 + (j - (o.first + 1))) * f / nsPerHour := by
        rw [show o.first + 1 + (j - (o.first + 1)) = j by omega]
        have := hd.1
        positivity
      refine lt_of_lt_of_le hterm (Finset.single_le_sum (f := fun k => c * p.weather (o.first + 1 + k) * f / nsPerHour) (fun r hr => ?_) hj)
      have hr := Finset.mem_range.mp hr
      have := ho.weather (o.first + 1 + r) (by omega)
      positivity
    simp only [Option.map_some, Option.getD_some, cellOp, cellDiv, Option.bind_some, if_neg htot.ne', mul_zero, zero_div, add_zero]
  · rw [(hout k (by push Not at hex; exact fun o hoo hc => absurd hc.2 (not_le.mpr (hex o hoo hc.1)))).1]
    exact hacc k

theorem lostIn_eq (t0 f : Int) (bin : Int → Int) (N : Nat) (q : Int) :
    (valids (((regular (t0 + f) f (N + 1) (fun k => some (p.lost (k + 1) * f / nsPerHour))).filter fun r => decide (bin r.1 = q)).map Prod.snd)).sum =
      p.lostIn t0 f bin (N + 2) q := by
  unfold Plant.lostIn regular
  rw [Finset.sum_range_succ']
  simp only [lt_irrefl, false_and, if_false, add_zero]
  rw [List.filter_map, List.map_map]
  have e : (Prod.snd ∘ fun k : Nat => (t0 + f + (k : Int) * f, (some (p.lost (k + 1) * f / nsPerHour) : Cell))) =
      fun k : Nat => some (p.lost (k + 1) * f / nsPerHour) := rfl
  rw [e, valids_map_some, sum_filter_range]
  apply Finset.sum_congr rfl
  intro k _
  have e2 : t0 + f + (k : Int) * f = t0 + ((k + 1 : Nat) : Int) * f := by push_cast; ring
  simp only [Function.comp, e2, decide_eq_true_eq, Nat.succ_pos, true_and]

/-- the whole run of a plant that never fails as a whole -/
theorem run_parts (hr : p.Recorded n t0 f c e0 i)
    (ho : p.Observable n) (hcmp : p.Comparable n) (hf : 0 < f) (hc : 0 < c) (ha : a.thresholds = none) (hs : a.sizes = none)
    (hlim : ∀ k < n, ∀ L : ℚ, a.limits.getD k none = some L → p.full k ≤ L)
    (hq : 0 ≤ a.qLow ∧ a.qLow ≤ 1) (hq' : 0 ≤ a.qHigh ∧ a.qHigh ≤ 1)
    (hfirst : ∃ k < n, p.Lit k ∧ ∀ r < k, p.weather r = 0)
    (hup : ∀ k < n, p.Dark k → ∀ j < p.m, p.produces k j = true)
    (hlong : ∀ k < n, p.Dark k → ∃ k' < n, p.Dark k' ∧ (k' = k + 1 ∨ k = k' + 1))
    {bin : Int → Int} (hb : a.bin = some bin) (o : Obj) (hi : o.input = i) :
    ∃ N d outs sl, n = N + 2 ∧ sl.corrected.length = n ∧ (∀ k < n, p.Lit k → sl.corrected[k]? = some (some (p.counter e0 f k))) ∧
      run a o = (⟨i, some (lossSubsystem a i), some d, some outs, some sl, some ((List.range n).map fun k : Nat => some (p.lost k)),
        some (rollup bin (i.index.zip sl.corrected) (regular (t0 + f) f (N + 1) (fun k => some (p.lost (k + 1) * f / nsPerHour))))⟩, .ok ()) := by
  obtain ⟨d, h1, h2, he, h3, h4⟩ := calibrated (a := a) hr ho hcmp hf hc hq hq'
  rw [← loss_eq hr ho ha hs hlim] at h1
  obtain ⟨outs, hout, hruns, hpw, hall⟩ := outages hr ho hf hc he h3 h4 hfirst
  have hmask := mask_eq hr ho ha
  have hnolit : ∀ k < n, ¬ p.Lit k → p.lost k = 0 := by
    intro k hk hl
    unfold Plant.lost
    by_cases hw : 0 < p.weather k
    · have hprod := hup k hk ⟨hw, hl⟩
      have : p.delivered k = p.full k := Finset.sum_congr rfl fun j hj => if_pos (hprod j (Finset.mem_range.mp hj))
      rw [this, sub_self]
    · have hw0 : p.weather k = 0 := le_antisymm (not_lt.mp hw) (ho.weather k hk)
      rw [full_eq, delivered_eq, hw0]
      ring
  have hzero : ∀ o ∈ outs, o.loss = some 0 := by
    intro o hoo
    obtain ⟨hse, hen, hin, -⟩ := (hruns o.first o.last).mp ⟨o, hoo, rfl, rfl⟩
    rw [(hall o hoo).2.1, Option.some.injEq]
    unfold Plant.lostEnergy
    apply Finset.sum_eq_zero
    intro k hk
    have hk := Finset.mem_range.mp hk
    rw [hnolit (o.first + k) (by omega) (inOutage_not_lit hr hc (by omega) (hin _ (by omega) (by omega)))]
    ring
  obtain ⟨sl, hsl, hsl0, hcl, hcor⟩ := systemLoss_zero hr ho hf hc hruns hpw hzero hlong
  have htot : lossTotal (lossSubsystem a i).loss sl.loss = (List.range n).map fun k : Nat => some (p.lost k) := by
    rw [loss_eq hr ho ha hs hlim, hsl0]
    unfold lossTotal
    rw [zipWith_maps]
    apply List.map_congr_left
    intro k hk
    have hk := List.mem_range.mp hk
    simp only [cellOp, zero_add, Option.some.injEq]
    unfold subLoss
    by_cases hl : lit p k = true
    · rw [if_pos hl]; rfl
    · rw [if_neg hl, hnolit k hk fun h => hl ((lit_iff k).mpr h)]
  obtain ⟨N, rfl⟩ : ∃ N, n = N + 2 := by
    obtain ⟨k, hk, -⟩ := hcmp.three
    exact ⟨n - 2, by omega⟩
  have hen : energyFromPower (i.index.zip ((List.range (N + 2)).map fun k : Nat => some (p.lost k))) none none .rightLabeled i.freq =
      .ok (regular (t0 + f) f (N + 1) (fun k => some (p.lost (k + 1) * f / nsPerHour))) := by
    rw [zip_regular hr (by simp), energy_regular hf N _ ⟨0, by omega, by
      rw [List.getD_eq_getElem?_getD, List.getElem?_map, List.getElem?_range (by omega)]; simp⟩]
    congr 1
    unfold regular
    apply List.map_congr_left
    intro k hk
    have hk := List.mem_range.mp hk
    simp only
    rw [List.getD_eq_getElem?_getD, List.getElem?_map, List.getElem?_range (by omega), List.getD_eq_getElem?_getD,
      List.getElem?_map, List.getElem?_range (by omega)]
    rfl
  refine ⟨N, d, outs, sl, rfl, hcl, hcor, ?_⟩
  · unfold run
    simp only [hi, h1]
    rw [hmask]
    unfold seenRows at hout
    simp only [hout, hsl, htot]
    unfold Avail.combine
    simp only [hb, hen, Except.map]

theorem filter_range_first {n k : Nat} {Q : Nat → Bool} (hk : k < n) (hq : Q k = true) (h : ∀ r < n, Q r = true → k ≤ r) :
    ∃ t, (List.range n).filter Q = k :: t := by
  obtain ⟨m, rfl⟩ : ∃ m, n = k + (m + 1) := ⟨n - k - 1, by omega⟩
  rw [List.range_add, List.filter_append, List.filter_eq_nil_iff.mpr, List.nil_append, List.range_succ_eq_map, List.map_cons,
    add_zero, List.filter_cons_of_pos hq]
  · exact ⟨_, rfl⟩
  · intro r hr hqr
    have hr := List.mem_range.mp hr
    have := h r (by omega) hqr
    omega

theorem filter_range_last {n k : Nat} {Q : Nat → Bool} (hk : k < n) (hq : Q k = true) (h : ∀ r < n, Q r = true → r ≤ k) :
    ∃ t, (List.range n).filter Q = t ++ [k] := by
  obtain ⟨m, rfl⟩ : ∃ m, n = (k + 1) + m := ⟨n - k - 1, by omega⟩
  rw [List.range_add, List.filter_append, (List.filter_eq_nil_iff (l := List.map (fun x => k + 1 + x) (List.range m))).mpr, List.append_nil, List.range_succ,
    List.filter_append, List.filter_cons_of_pos hq, List.filter_nil]
  · exact ⟨_, rfl⟩
  · intro r hr hqr
    obtain ⟨j, hj, rfl⟩ := List.mem_map.mp hr
    have hj := List.mem_range.mp hj
    have := h _ (by omega) hqr
    omega

/-- the readings a period starts and ends with -/
theorem period_readings {n : Nat} {t0 f q : Int} {idx : List Int} (hidx : idx = (List.range n).map fun k : Nat => t0 + (k : Int) * f)
    {cor : List Cell} (hlen : cor.length = n) {bin : Int → Int} {k1 k2 : Nat} (h1 : k1 < n) (h2 : k2 < n)
    (hb1 : bin (t0 + (k1 : Int) * f) = q) (hb2 : bin (t0 + (k2 : Int) * f) = q)
    (hall : ∀ k < n, bin (t0 + (k : Int) * f) = q → k1 ≤ k ∧ k ≤ k2) {x y : ℚ}
    (hx : cor[k1]? = some (some x)) (hy : cor[k2]? = some (some y)) :
    firstIn bin q (idx.zip cor) = some x ∧ lastIn bin q (idx.zip cor) = some y := by
  have hcor : cor = (List.range n).map fun k : Nat => cor.getD k none := by
    apply List.ext_getElem?
    intro k
    rw [List.getElem?_map]
    by_cases hk : k < n
    · rw [List.getElem?_range hk, Option.map_some, List.getD_eq_getElem?_getD, List.getElem?_eq_getElem (by omega)]
      rfl
    · rw [List.getElem?_eq_none (by omega), List.getElem?_eq_none (by simp; omega)]
      rfl
  have hz : (idx.zip cor).filter (fun r => decide (bin r.1 = q)) =
      ((List.range n).filter fun k : Nat => decide (bin (t0 + (k : Int) * f) = q)).map
        fun k : Nat => (t0 + (k : Int) * f, cor.getD k none) := by
    rw [hidx]
    nth_rw 1 [hcor]
    rw [List.zip_map', List.filter_map]
    rfl
  unfold firstIn lastIn
  rw [hz]
  constructor
  · obtain ⟨t, ht⟩ := filter_range_first (Q := fun k : Nat => decide (bin (t0 + (k : Int) * f) = q)) h1 (decide_eq_true hb1)
      fun r hr hq => (hall r hr (of_decide_eq_true hq)).1
    rw [ht, List.map_cons, List.map_cons, List.getD_eq_getElem?_getD, hx]
    rfl
  · obtain ⟨t, ht⟩ := filter_range_last (Q := fun k : Nat => decide (bin (t0 + (k : Int) * f) = q)) h2 (decide_eq_true hb2)
      fun r hr hq => (hall r hr (of_decide_eq_true hq)).2
    rw [ht, List.map_append, List.map_append, List.map_singleton, List.map_singleton, List.getD_eq_getElem?_getD, hy]
    unfold valids
    rw [List.filterMap_append]
    simp

end Recover
end Verif
