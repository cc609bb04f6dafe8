import Verif.Lemmas.Filtering
import Verif.Model.Bootstrap
import Verif.Model.Utilities

/-! # Percentiles, constant samples, scaling of the robust median -/

namespace Verif

theorem percentileE_ok {l : List ℚ} {p v : ℚ} (h : percentileE l p = .ok v) :
    0 ≤ p ∧ p ≤ 100 ∧ quantile l (p / 100) = some v := by
  unfold percentileE at h
  split_ifs at h with hp
  push Not at hp
  refine ⟨hp.1, hp.2, ?_⟩
  cases l with
  | nil => simp at h
  | cons a l => simpa [quantile] using h

theorem percentileE_defined {l : List ℚ} {p : ℚ} (hl : l ≠ []) (h0 : 0 ≤ p) (h1 : p ≤ 100) :
    ∃ v, percentileE l p = .ok v := by
  unfold percentileE
  rw [if_neg (by push Not; exact ⟨h0, h1⟩)]
  cases l with
  | nil => exact absurd rfl hl
  | cons a l => exact ⟨_, rfl⟩

theorem percentileE_ge {l : List ℚ} {p v m : ℚ} (h : percentileE l p = .ok v)
    (hm : ∀ x ∈ l, m ≤ x) : m ≤ v := by
  obtain ⟨h0, h1, hq⟩ := percentileE_ok h
  exact quantile_ge hq (by positivity) (by linarith) hm

theorem percentileE_le {l : List ℚ} {p v m : ℚ} (h : percentileE l p = .ok v)
    (hm : ∀ x ∈ l, x ≤ m) : v ≤ m := by
  obtain ⟨h0, h1, hq⟩ := percentileE_ok h
  exact quantile_le hq (by positivity) (by linarith) hm

theorem percentileE_mono {l : List ℚ} {p r v w : ℚ} (hv : percentileE l p = .ok v)
    (hw : percentileE l r = .ok w) (hpr : p ≤ r) : v ≤ w := by
  obtain ⟨h0, h1, hq⟩ := percentileE_ok hv
  obtain ⟨k0, k1, hr⟩ := percentileE_ok hw
  exact quantile_mono hq hr (by positivity) (by linarith) (by linarith)

theorem confidenceInterval_ok {l : List ℚ} {exceed conf : ℚ} {ci : (ℚ × ℚ) × ℚ}
    (h : confidenceInterval l exceed conf = .ok ci) :
    percentileE l (50 - conf / 2) = .ok ci.1.1 ∧ percentileE l (50 + conf / 2) = .ok ci.1.2 ∧
      percentileE l (100 - exceed) = .ok ci.2 := by
  unfold confidenceInterval at h
  cases h1 : percentileE l (50 - conf / 2) with
  | error e => rw [h1] at h; exact absurd h (by simp [Except.bind])
  | ok a =>
    cases h2 : percentileE l (50 + conf / 2) with
    | error e => rw [h1, h2] at h; exact absurd h (by simp [Except.bind])
    | ok b =>
      cases h3 : percentileE l (100 - exceed) with
      | error e => rw [h1, h2, h3] at h; exact absurd h (by simp [Except.bind])
      | ok c =>
        rw [h1, h2, h3] at h
        simp only [Except.bind, Except.ok.injEq] at h
        subst h
        exact ⟨rfl, rfl, rfl⟩

theorem median_ge {l : List ℚ} {v m : ℚ} (h : median l = some v) (hm : ∀ x ∈ l, m ≤ x) : m ≤ v :=
  quantile_ge h (by norm_num) (by norm_num) hm

theorem median_le {l : List ℚ} {v m : ℚ} (h : median l = some v) (hm : ∀ x ∈ l, x ≤ m) : v ≤ m :=
  quantile_le h (by norm_num) (by norm_num) hm

theorem median_isSome {l : List ℚ} : (median l).isSome ↔ l ≠ [] := quantile_isSome

theorem median_const {l : List ℚ} {v c : ℚ} (h : median l = some v) (hc : ∀ x ∈ l, x = c) : v = c :=
  le_antisymm (median_le h fun x hx => (hc x hx).le) (median_ge h fun x hx => (hc x hx).ge)

theorem quantile_const {l : List ℚ} {q c : ℚ} (h0 : 0 ≤ q) (h1 : q ≤ 1) (hne : l ≠ [])
    (hc : ∀ x ∈ l, x = c) : quantile l q = some c := by
  obtain ⟨v, hv⟩ := Option.isSome_iff_exists.mp (quantile_isSome (q := q).mpr hne)
  rw [hv, Option.some.injEq]
  exact le_antisymm (quantile_le hv h0 h1 fun x hx => (hc x hx).le)
    (quantile_ge hv h0 h1 fun x hx => (hc x hx).ge)

theorem robustSmall_scale {c : ℚ} (hc : 0 < c) (x : List Cell) {q : ℚ} (h0 : 0 ≤ q) (h1 : q ≤ 1) :
    robustSmall (x.map fun y => y.map (c * ·)) q = (robustSmall x q).map (c * ·) := by
  unfold robustSmall
  have : (x.map fun y => y.map (c * ·)).map (fun y => y.getD 0) =
      (x.map fun y => y.getD 0).map (c * ·) := by
    rw [List.map_map, List.map_map]
    apply List.map_congr_left
    intro y _
    cases y <;> simp
  rw [this, quantile_smul hc h0 h1]
  cases quantile (x.map fun y => y.getD 0) q <;> simp
  ring

theorem robustKeep_scale {c : ℚ} (hc : 0 < c) (x : List Cell) {q : ℚ} (h0 : 0 ≤ q) (h1 : q ≤ 1) :
    robustKeep (x.map fun y => y.map (c * ·)) q = (robustKeep x q).map (c * ·) := by
  unfold robustKeep
  rw [robustSmall_scale hc x h0 h1, List.filter_map, valids_scale]
  congr 2
  apply List.filter_congr
  intro y _
  simp only [Function.comp_apply]
  exact cellCmp_scale _ (fun a b => by simp [hc]) _ _

theorem robustMedian_scale {c : ℚ} (hc : 0 < c) (x : List Cell) {q : ℚ} (h0 : 0 ≤ q) (h1 : q ≤ 1) :
    robustMedian (x.map fun y => y.map (c * ·)) q = (robustMedian x q).map (c * ·) := by
  unfold robustMedian
  rw [robustKeep_scale hc x h0 h1, median_smul hc]

end Verif
