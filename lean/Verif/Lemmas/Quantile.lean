import Verif.Spec.Quantile
import Verif.Lemmas.Stats

/-! # The computed quantile is the quantile -/

namespace Verif
open Spec

theorem isQuantile_iff {l : List ℚ} {q v : ℚ} (h0 : 0 ≤ q) (h1 : q ≤ 1) :
    IsQuantile l q v ↔ quantile l q = some v := by
  have key : ∀ l' : List ℚ, l' ≠ [] → ∀ k : Nat, ∀ θ : ℚ, k < l'.length → 0 ≤ θ → θ < 1 →
      q * ((l'.length : ℚ) - 1) = k + θ →
      quantileSorted l' q = (1 - θ) * l'.getD k 0 + θ * l'.getD (k + 1) 0 := by
    intro l' hne k θ hk ht0 ht1 he
    unfold quantileSorted
    simp only
    have hfl : ⌊q * ((l'.length : ℚ) - 1)⌋.toNat = k := by
      rw [he]
      have : ⌊(k : ℚ) + θ⌋ = (k : Int) := by
        rw [Int.floor_eq_iff]; push_cast; constructor <;> linarith
      rw [this]; simp
    rw [hfl, he]
    by_cases hk1 : k + 1 < l'.length
    · rw [min_eq_left (by omega)]; ring
    · have hkn : k + 1 = l'.length := by omega
      have hθ : θ = 0 := by
        have hl : (l'.length : ℚ) = k + 1 := by exact_mod_cast hkn.symm
        rw [hl] at he
        have hk0 : (0 : ℚ) ≤ k := by positivity
        have : q * (k + 1 - 1) ≤ k := by nlinarith
        linarith
      rw [hθ]; ring
  constructor
  · rintro ⟨l', hp, hs, k, θ, hk, ht0, ht1, he, rfl⟩
    have hne' : l' ≠ [] := by rintro rfl; simp at hk
    have hl : l ≠ [] := by rintro rfl; exact hne' hp.eq_nil
    have hs' : sortQ l = l' := by
      rw [← sortQ_eq_of_perm hp]
      exact List.Perm.eq_of_pairwise (le := (· ≤ ·))
        (fun a b _ _ h1 h2 => le_antisymm h1 h2) (sortQ_pairwise l') hs (sortQ_perm l')
    rw [quantile_some hl, hs', key l' hne' k θ hk ht0 ht1 he]
  · intro h
    obtain ⟨hne, rfl⟩ := quantile_eq_some h
    have hlen := sortQ_length_pos hne
    obtain ⟨a1, a2, a3, a4⟩ := quantile_index hlen h0 h1
    refine ⟨sortQ l, sortQ_perm l, sortQ_pairwise l, _, q * (((sortQ l).length : ℚ) - 1) -
      (⌊q * (((sortQ l).length : ℚ) - 1)⌋.toNat : ℚ), a3, by linarith, by linarith, by ring, ?_⟩
    exact key _ (List.length_pos_iff.mp hlen) _ _ a3 (by linarith) (by linarith) (by ring)

end Verif
