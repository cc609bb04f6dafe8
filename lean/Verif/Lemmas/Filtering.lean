import Verif.Lemmas.Stats
import Verif.Lemmas.Scaling
import Verif.Model.Filtering
import Verif.Spec.Filtering

/-! # Lemmas about quantiles of filtered samples, scaling of rolling medians -/

namespace Verif

theorem valids_scale (c : ℚ) (l : List Cell) :
    valids (l.map fun x => x.map (c * ·)) = (valids l).map (c * ·) := by
  unfold valids
  rw [List.filterMap_map, List.map_filterMap]
  rfl

theorem valids_snd_scaleS (c : ℚ) (s : Series) :
    valids ((scaleS c s).map Prod.snd) = (valids (s.map Prod.snd)).map (c * ·) := by
  rw [← valids_scale]
  simp [scaleS, Function.comp_def]

theorem snd_scaleS (c : ℚ) (s : Series) :
    (scaleS c s).map Prod.snd = (s.map Prod.snd).map fun x => x.map (c * ·) := by
  simp [scaleS, Function.comp_def]

theorem median_smul {c : ℚ} (hc : 0 < c) (l : List ℚ) :
    median (l.map (c * ·)) = (median l).map (c * ·) :=
  quantile_smul hc (by norm_num) (by norm_num)

theorem rollMedian_scale {c : ℚ} (hc : 0 < c) (win : Int → Int → Bool) (m : Nat) (s : Series) :
    rollMedian win m (scaleS c s) = (rollMedian win m s).map fun x => x.map (c * ·) := by
  unfold rollMedian
  rw [List.map_map]
  conv_lhs => rw [scaleS, List.map_map]
  apply List.map_congr_left
  intro r _
  simp only [Function.comp_apply]
  have : (s.map fun r => (r.1, r.2.map (c * ·))).filter (fun u => win r.1 u.1) =
      scaleS c (s.filter fun u => win r.1 u.1) := by
    unfold scaleS
    rw [List.filter_map]; rfl
  rw [this, valids_snd_scaleS, List.length_map, median_smul hc]
  split <;> rfl

theorem zipWith_scale (f : Cell → Cell → Cell) (c : ℚ)
    (hf : ∀ x y, f (x.map (c * ·)) (y.map (c * ·)) = (f x y).map (c * ·)) (a b : List Cell) :
    List.zipWith f (a.map fun x => x.map (c * ·)) (b.map fun x => x.map (c * ·)) =
      (List.zipWith f a b).map fun x => x.map (c * ·) := by
  rw [List.zipWith_map, List.map_zipWith]
  congr 1
  funext x y
  exact hf x y

theorem cellOp_sub_scale (c : ℚ) (x y : Cell) :
    cellOp (fun x y => x - y) (x.map (c * ·)) (y.map (c * ·)) =
      (cellOp (fun x y => x - y) x y).map (c * ·) := by
  cases x <;> cases y <;> simp [cellOp]; ring

theorem cellOp_abs_scale {c : ℚ} (hc : 0 < c) (x y : Cell) :
    cellOp (fun x y => |x - y|) (x.map (c * ·)) (y.map (c * ·)) =
      (cellOp (fun x y => |x - y|) x y).map (c * ·) := by
  cases x <;> cases y <;> simp [cellOp]
  rw [← mul_sub, abs_mul, abs_of_pos hc]

theorem cellCmp_scale {c : ℚ} (r : ℚ → ℚ → Bool) (hr : ∀ a b, r (c * a) (c * b) = r a b)
    (x y : Cell) : cellCmp r (x.map (c * ·)) (y.map (c * ·)) = cellCmp r x y := by
  cases x <;> cases y <;> simp [cellCmp, hr]

theorem lt_scale {c : ℚ} (hc : 0 < c) (a b : ℚ) : decide (c * a < c * b) = decide (a < b) := by
  simp [hc]

theorem le_scale {c : ℚ} (hc : 0 < c) (a b : ℚ) : decide (c * a ≤ c * b) = decide (a ≤ b) := by
  simp [hc]

/-- Quantiles of the upper tail of a sample are higher. -/
theorem quantileSorted_drop_ge {l : List ℚ} (hl : l.Pairwise (· ≤ ·)) {d : Nat} (hd : d < l.length)
    {q : ℚ} (h0 : 0 ≤ q) (h1 : q ≤ 1) : quantileSorted l q ≤ quantileSorted (l.drop d) q := by
  have hne : 0 < l.length := by omega
  have hlen : (l.drop d).length = l.length - d := by simp
  have hne' : 0 < (l.drop d).length := by omega
  have hl' : (l.drop d).Pairwise (· ≤ ·) := hl.sublist (List.drop_sublist d l)
  obtain ⟨a1, a2, a3, a4⟩ := quantile_index hne h0 h1
  obtain ⟨b1, b2, b3, b4⟩ := quantile_index hne' h0 h1
  have hA := quantileSorted_between hl hne h0 h1
  have hB := quantileSorted_between hl' hne' h0 h1
  have hgd : ∀ i, (l.drop d).getD i 0 = l.getD (d + i) 0 := by
    intro i; simp [List.getD_eq_getElem?_getD]
  have hcast : ((l.drop d).length : ℚ) = l.length - d := by
    rw [hlen, Nat.cast_sub hd.le]
  set k := ⌊q * ((l.length : ℚ) - 1)⌋.toNat with hk
  set k' := ⌊q * (((l.drop d).length : ℚ) - 1)⌋.toNat with hk'
  have hhh : q * ((l.length : ℚ) - 1) ≤ q * (((l.drop d).length : ℚ) - 1) + d := by
    rw [hcast]
    have : (0 : ℚ) ≤ d * (1 - q) := mul_nonneg (by positivity) (by linarith)
    nlinarith
  have hkk : k ≤ d + k' := by
    have : (k : ℚ) < (d + k' : Nat) + 1 := by push_cast; linarith
    have : k < d + k' + 1 := by exact_mod_cast this
    omega
  rcases Nat.lt_or_eq_of_le hkk with hlt | heq
  · refine hA.2.trans (le_trans ?_ hB.1)
    rw [hgd]
    apply getD_mono hl _ (by omega)
    omega
  · unfold quantileSorted
    simp only
    rw [← hk, ← hk', hgd, hgd]
    have e1 : d + min (k' + 1) ((l.drop d).length - 1) = min (k + 1) (l.length - 1) := by omega
    rw [e1, ← heq]
    have hmono : l.getD k 0 ≤ l.getD (min (k + 1) (l.length - 1)) 0 :=
      getD_mono hl (by omega) (by omega)
    have : (k : ℚ) = d + k' := by exact_mod_cast heq
    nlinarith

theorem sortQ_split (l : List ℚ) (s : ℚ) :
    sortQ l = sortQ (l.filter fun x => decide (x ≤ s)) ++ sortQ (l.filter fun x => decide (s < x)) := by
  apply List.Perm.eq_of_pairwise (le := (· ≤ ·)) _ (sortQ_pairwise l)
  · rw [List.pairwise_append]
    refine ⟨sortQ_pairwise _, sortQ_pairwise _, ?_⟩
    intro a ha b hb
    have ha' := (List.mem_filter.mp (mem_sortQ.mp ha)).2
    have hb' := (List.mem_filter.mp (mem_sortQ.mp hb)).2
    simp at ha' hb'
    linarith
  · refine (sortQ_perm l).trans ?_
    refine List.Perm.trans ?_ ((sortQ_perm _).append (sortQ_perm _)).symm
    have := (List.filter_append_perm (fun x : ℚ => decide (x ≤ s)) l).symm
    refine this.trans ?_
    apply List.Perm.append_left
    apply List.Perm.of_eq
    apply List.filter_congr
    intro x _
    by_cases h : x ≤ s
    · simp [h, not_lt.mpr h]
    · simp [h, not_le.mp h]
  · intro a b _ _ h1 h2; exact le_antisymm h1 h2

/-- Raising the lower cutoff of a sample raises its quantiles. -/
theorem quantile_filter_ge {l : List ℚ} {s q v w : ℚ} (h0 : 0 ≤ q) (h1 : q ≤ 1)
    (hv : quantile l q = some v) (hw : quantile (l.filter fun x => decide (s < x)) q = some w) :
    v ≤ w := by
  obtain ⟨hne, rfl⟩ := quantile_eq_some hv
  obtain ⟨hne', rfl⟩ := quantile_eq_some hw
  have hs := sortQ_split l s
  set A := sortQ (l.filter fun x => decide (x ≤ s)) with hA
  set B := sortQ (l.filter fun x => decide (s < x)) with hB
  have hBpos : 0 < B.length := sortQ_length_pos hne'
  have hd : B = (sortQ l).drop A.length := by rw [hs]; simp
  rw [hd]
  apply quantileSorted_drop_ge (sortQ_pairwise l) _ h0 h1
  rw [hs]; simp; omega

/-- The median is the mean of the two middle elements (which coincide for odd lengths). -/
theorem quantileSorted_half {l : List ℚ} (hne : 0 < l.length) :
    quantileSorted l (1/2) = (l.getD ((l.length - 1) / 2) 0 + l.getD (l.length / 2) 0) / 2 := by
  obtain ⟨a1, a2, a3, a4⟩ := quantile_index hne (q := 1/2) (by norm_num) (by norm_num)
  unfold quantileSorted
  simp only
  set k := ⌊1 / 2 * ((l.length : ℚ) - 1)⌋.toNat with hk
  have h1 : (2 * k : Nat) ≤ (l.length : ℚ) - 1 := by push_cast; linarith
  have h2 : (l.length : ℚ) - 1 < (2 * k + 2 : Nat) := by push_cast; linarith
  have h1' : 2 * k + 1 ≤ l.length := by
    have : ((2 * k + 1 : Nat) : ℚ) ≤ l.length := by push_cast at h1 ⊢; linarith
    exact_mod_cast this
  have h2' : l.length < 2 * k + 3 := by
    have : (l.length : ℚ) < ((2 * k + 3 : Nat) : ℚ) := by push_cast at h2 ⊢; linarith
    exact_mod_cast this
  rcases (by omega : l.length = 2 * k + 1 ∨ l.length = 2 * k + 2) with h | h
  · have e1 : (l.length - 1) / 2 = k := by omega
    have e2 : l.length / 2 = k := by omega
    rw [e1, e2]
    have : (l.length : ℚ) = 2 * k + 1 := by rw [h]; push_cast; ring
    rw [this]; ring
  · have e1 : (l.length - 1) / 2 = k := by omega
    have e2 : l.length / 2 = k + 1 := by omega
    have e3 : min (k + 1) (l.length - 1) = k + 1 := by omega
    rw [e1, e2, e3]
    have : (l.length : ℚ) = 2 * k + 2 := by rw [h]; push_cast; ring
    rw [this]; ring

theorem sortQ_neg (l : List ℚ) : sortQ (l.map (- ·)) = ((sortQ l).map (- ·)).reverse := by
  apply List.Perm.eq_of_pairwise (le := (· ≤ ·)) _ (sortQ_pairwise _)
  · rw [List.pairwise_reverse, List.pairwise_map]
    exact (sortQ_pairwise l).imp fun h => by linarith
  · refine (sortQ_perm _).trans ?_
    refine List.Perm.trans ?_ (List.reverse_perm _).symm
    exact (sortQ_perm l).symm.map _
  · intro a b _ _ h1 h2; exact le_antisymm h1 h2

theorem getD_reverse' {l : List ℚ} {i : Nat} (hi : i < l.length) :
    l.reverse.getD i 0 = l.getD (l.length - 1 - i) 0 := by
  simp only [List.getD_eq_getElem?_getD]
  rw [List.getElem?_reverse hi]

theorem median_neg (l : List ℚ) : median (l.map (- ·)) = (median l).map (- ·) := by
  unfold median
  by_cases hne : l = []
  · subst hne; rfl
  · rw [quantile_some (by simpa using hne), quantile_some hne, sortQ_neg]
    have hpos := sortQ_length_pos hne
    rw [quantileSorted_half (by simpa using hpos), quantileSorted_half hpos]
    simp only [List.length_reverse, List.length_map, Option.map_some]
    rw [getD_reverse' (by simp; omega), getD_reverse' (by simp; omega)]
    simp only [List.length_map]
    rw [getD_map' _ (by omega), getD_map' _ (by omega)]
    have e1 : (sortQ l).length - 1 - ((sortQ l).length - 1) / 2 = (sortQ l).length / 2 := by omega
    have e2 : (sortQ l).length - 1 - (sortQ l).length / 2 = ((sortQ l).length - 1) / 2 := by omega
    rw [e1, e2]
    congr 1; ring

/-- The median commutes with any scaling. -/
theorem median_mul {c : ℚ} (hc : c ≠ 0) (l : List ℚ) :
    median (l.map (c * ·)) = (median l).map (c * ·) := by
  rcases lt_or_gt_of_ne hc with h | h
  · have : l.map (c * ·) = (l.map ((-c) * ·)).map (- ·) := by
      rw [List.map_map]; apply List.map_congr_left; intro a _; simp
    rw [this, median_neg, median_smul (by linarith), Option.map_map]
    congr 1; funext x; simp
  · exact median_smul h l

theorem rollMedian_mul {c : ℚ} (hc : c ≠ 0) (win : Int → Int → Bool) (m : Nat) (s : Series) :
    rollMedian win m (scaleS c s) = (rollMedian win m s).map fun x => x.map (c * ·) := by
  unfold rollMedian
  rw [List.map_map]
  conv_lhs => rw [scaleS, List.map_map]
  apply List.map_congr_left
  intro r _
  simp only [Function.comp_apply]
  have : (s.map fun r => (r.1, r.2.map (c * ·))).filter (fun u => win r.1 u.1) =
      scaleS c (s.filter fun u => win r.1 u.1) := by
    unfold scaleS
    rw [List.filter_map]; rfl
  rw [this, valids_snd_scaleS, List.length_map, median_mul hc]
  split <;> rfl

open Spec in
theorem isMedian_iff {l : List ℚ} {m : ℚ} : IsMedian l m ↔ median l = some m := by
  unfold IsMedian median
  constructor
  · rintro ⟨l', hp, hs, hne, rfl⟩
    have hl : l ≠ [] := by rintro rfl; exact hne hp.eq_nil
    have hs' : sortQ l = l' := by
      rw [← sortQ_eq_of_perm hp]
      exact List.Perm.eq_of_pairwise (le := (· ≤ ·))
        (fun a b _ _ h1 h2 => le_antisymm h1 h2) (sortQ_pairwise l') hs (sortQ_perm l')
    rw [quantile_some hl, hs', quantileSorted_half (List.length_pos_iff.mpr hne)]
  · intro h
    obtain ⟨hne, rfl⟩ := quantile_eq_some h
    exact ⟨sortQ l, sortQ_perm l, sortQ_pairwise l, List.length_pos_iff.mp (sortQ_length_pos hne),
      quantileSorted_half (sortQ_length_pos hne)⟩

end Verif
