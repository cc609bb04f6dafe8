import Verif.Model.Stats
import Verif.Lemmas.Tactics

/-! Helper lemmas on order statistics. -/

namespace Verif

theorem sortQ_pairwise (l : List ℚ) : (sortQ l).Pairwise (· ≤ ·) :=
  List.pairwise_insertionSort _ l

theorem sortQ_perm (l : List ℚ) : (sortQ l).Perm l := List.perm_insertionSort _ l

theorem sortQ_length (l : List ℚ) : (sortQ l).length = l.length := (sortQ_perm l).length_eq

theorem mem_sortQ {l : List ℚ} {x : ℚ} : x ∈ sortQ l ↔ x ∈ l := (sortQ_perm l).mem_iff

theorem sortQ_eq_of_perm {l l' : List ℚ} (h : l.Perm l') : sortQ l = sortQ l' := by
  apply List.Perm.eq_of_pairwise (le := (· ≤ ·)) _ (sortQ_pairwise l) (sortQ_pairwise l')
  · exact ((sortQ_perm l).trans h).trans (sortQ_perm l').symm
  · intro a b _ _ h1 h2; exact le_antisymm h1 h2

theorem sortQ_map {f : ℚ → ℚ} (hf : ∀ a b, a ≤ b ↔ f a ≤ f b) (l : List ℚ) :
    sortQ (l.map f) = (sortQ l).map f :=
  (List.map_insertionSort _ _ f l (fun a _ b _ => hf a b)).symm

theorem getD_mono {l : List ℚ} (hl : l.Pairwise (· ≤ ·)) {i j : Nat} (hij : i ≤ j)
    (hj : j < l.length) : l.getD i 0 ≤ l.getD j 0 := by
  rcases Nat.lt_or_eq_of_le hij with h | h
  · have hi : i < l.length := by omega
    have := List.pairwise_iff_getElem.mp hl i j hi hj h
    simpa [List.getD_eq_getElem?_getD, hi, hj] using this
  · subst h; exact le_refl _

theorem getD_mem' {l : List ℚ} {i : Nat} (hi : i < l.length) : l.getD i 0 ∈ l := by
  simp [List.getD_eq_getElem?_getD, hi]

/-- Index facts about the virtual index of a quantile. -/
theorem quantile_index {n : Nat} (hn : 0 < n) {q : ℚ} (h0 : 0 ≤ q) (h1 : q ≤ 1) :
    let h : ℚ := q * ((n : ℚ) - 1)
    let k : Nat := ⌊h⌋.toNat
    (k : ℚ) ≤ h ∧ h < k + 1 ∧ k < n ∧ 0 ≤ h := by
  intro h k
  have hn1 : (1 : ℚ) ≤ n := by exact_mod_cast hn
  have hh0 : 0 ≤ h := mul_nonneg h0 (by linarith)
  have hfl : 0 ≤ ⌊h⌋ := Int.floor_nonneg.mpr hh0
  have hk : ((k : Int) : ℚ) = (⌊h⌋ : ℚ) := by
    have : (k : Int) = ⌊h⌋ := Int.toNat_of_nonneg hfl
    rw [this]
  have hk' : (k : ℚ) = (⌊h⌋ : ℚ) := by exact_mod_cast hk
  have h2 : (⌊h⌋ : ℚ) ≤ h := Int.floor_le h
  have h3 : h < ⌊h⌋ + 1 := Int.lt_floor_add_one h
  have h4 : h ≤ (n : ℚ) - 1 := by
    have : q * ((n : ℚ) - 1) ≤ 1 * ((n : ℚ) - 1) := by
      apply mul_le_mul_of_nonneg_right h1; linarith
    simpa using this
  refine ⟨by rw [hk']; exact h2, by rw [hk']; exact h3, ?_, hh0⟩
  have : (k : ℚ) ≤ (n : ℚ) - 1 := by rw [hk']; linarith
  have : (k : ℚ) < n := by linarith
  exact_mod_cast this

/-- A quantile sits between two adjacent order statistics. -/
theorem quantileSorted_between {l : List ℚ} (hl : l.Pairwise (· ≤ ·)) (hne : 0 < l.length)
    {q : ℚ} (h0 : 0 ≤ q) (h1 : q ≤ 1) :
    l.getD ⌊q * ((l.length : ℚ) - 1)⌋.toNat 0 ≤ quantileSorted l q ∧
    quantileSorted l q ≤
      l.getD (min (⌊q * ((l.length : ℚ) - 1)⌋.toNat + 1) (l.length - 1)) 0 := by
  obtain ⟨hk1, hk2, hk3, _⟩ := quantile_index hne h0 h1
  unfold quantileSorted
  simp only
  generalize ⌊q * ((l.length : ℚ) - 1)⌋.toNat = k at *
  have hmono : l.getD k 0 ≤ l.getD (min (k + 1) (l.length - 1)) 0 :=
    getD_mono hl (by omega) (by omega)
  constructor
  · nlinarith
  · nlinarith

theorem quantileSorted_ge {l : List ℚ} (hl : l.Pairwise (· ≤ ·)) (hne : 0 < l.length)
    {q m : ℚ} (h0 : 0 ≤ q) (h1 : q ≤ 1) (hm : ∀ x ∈ l, m ≤ x) : m ≤ quantileSorted l q := by
  obtain ⟨_, _, hk3, _⟩ := quantile_index hne h0 h1
  exact le_trans (hm _ (getD_mem' hk3)) (quantileSorted_between hl hne h0 h1).1

theorem quantileSorted_le {l : List ℚ} (hl : l.Pairwise (· ≤ ·)) (hne : 0 < l.length)
    {q m : ℚ} (h0 : 0 ≤ q) (h1 : q ≤ 1) (hm : ∀ x ∈ l, x ≤ m) : quantileSorted l q ≤ m :=
  le_trans (quantileSorted_between hl hne h0 h1).2 (hm _ (getD_mem' (by omega)))

theorem quantileSorted_mono {l : List ℚ} (hl : l.Pairwise (· ≤ ·)) (hne : 0 < l.length)
    {q r : ℚ} (h0 : 0 ≤ q) (hqr : q ≤ r) (h1 : r ≤ 1) :
    quantileSorted l q ≤ quantileSorted l r := by
  obtain ⟨a1, a2, a3, a4⟩ := quantile_index hne h0 (hqr.trans h1)
  obtain ⟨b1, b2, b3, b4⟩ := quantile_index hne (h0.trans hqr) h1
  have hA := quantileSorted_between hl hne h0 (hqr.trans h1)
  have hB := quantileSorted_between hl hne (h0.trans hqr) h1
  have hn1 : (1 : ℚ) ≤ l.length := by exact_mod_cast hne
  have hhh : q * ((l.length : ℚ) - 1) ≤ r * ((l.length : ℚ) - 1) :=
    mul_le_mul_of_nonneg_right hqr (by linarith)
  have hkk : ⌊q * ((l.length : ℚ) - 1)⌋.toNat ≤ ⌊r * ((l.length : ℚ) - 1)⌋.toNat :=
    Int.toNat_le_toNat (Int.floor_le_floor hhh)
  rcases Nat.lt_or_eq_of_le hkk with hlt | heq
  · refine hA.2.trans (le_trans ?_ hB.1)
    apply getD_mono hl _ b3
    omega
  · unfold quantileSorted
    simp only
    rw [← heq]
    have hmono : l.getD ⌊q * ((l.length : ℚ) - 1)⌋.toNat 0 ≤
        l.getD (min (⌊q * ((l.length : ℚ) - 1)⌋.toNat + 1) (l.length - 1)) 0 :=
      getD_mono hl (by omega) (by omega)
    nlinarith

theorem getD_map' (f : ℚ → ℚ) {l : List ℚ} {i : Nat} (hi : i < l.length) :
    (l.map f).getD i 0 = f (l.getD i 0) := by
  simp [List.getD_eq_getElem?_getD, hi]

/-- Quantiles commute with affine maps. -/
theorem quantileSorted_affine {l : List ℚ} (hne : 0 < l.length) (a b : ℚ) {q : ℚ}
    (h0 : 0 ≤ q) (h1 : q ≤ 1) :
    quantileSorted (l.map (fun x => a * x + b)) q = a * quantileSorted l q + b := by
  obtain ⟨_, _, hk3, _⟩ := quantile_index hne h0 h1
  unfold quantileSorted
  simp only [List.length_map]
  rw [getD_map' _ hk3, getD_map' _ (by omega)]
  ring

theorem quantile_some {l : List ℚ} (hne : l ≠ []) (q : ℚ) :
    quantile l q = some (quantileSorted (sortQ l) q) := by
  cases l with
  | nil => exact absurd rfl hne
  | cons a l => rfl

theorem quantile_eq_some {l : List ℚ} {q v : ℚ} (h : quantile l q = some v) :
    l ≠ [] ∧ v = quantileSorted (sortQ l) q := by
  cases l with
  | nil => simp [quantile] at h
  | cons a l => simp [quantile] at h; exact ⟨by simp, h.symm⟩

theorem quantile_isSome {l : List ℚ} {q : ℚ} : (quantile l q).isSome ↔ l ≠ [] := by
  cases l <;> simp [quantile]

theorem sortQ_length_pos {l : List ℚ} (hne : l ≠ []) : 0 < (sortQ l).length := by
  rw [sortQ_length]; exact List.length_pos_iff.mpr hne

theorem quantile_ge {l : List ℚ} {q v m : ℚ} (h : quantile l q = some v) (h0 : 0 ≤ q)
    (h1 : q ≤ 1) (hm : ∀ x ∈ l, m ≤ x) : m ≤ v := by
  obtain ⟨hne, rfl⟩ := quantile_eq_some h
  exact quantileSorted_ge (sortQ_pairwise l) (sortQ_length_pos hne) h0 h1
    (fun x hx => hm x (mem_sortQ.mp hx))

theorem quantile_le {l : List ℚ} {q v m : ℚ} (h : quantile l q = some v) (h0 : 0 ≤ q)
    (h1 : q ≤ 1) (hm : ∀ x ∈ l, x ≤ m) : v ≤ m := by
  obtain ⟨hne, rfl⟩ := quantile_eq_some h
  exact quantileSorted_le (sortQ_pairwise l) (sortQ_length_pos hne) h0 h1
    (fun x hx => hm x (mem_sortQ.mp hx))

theorem quantile_mono {l : List ℚ} {q r v w : ℚ} (hv : quantile l q = some v)
    (hw : quantile l r = some w) (h0 : 0 ≤ q) (hqr : q ≤ r) (h1 : r ≤ 1) : v ≤ w := by
  obtain ⟨hne, rfl⟩ := quantile_eq_some hv
  obtain ⟨_, rfl⟩ := quantile_eq_some hw
  exact quantileSorted_mono (sortQ_pairwise l) (sortQ_length_pos hne) h0 hqr h1

theorem quantile_perm {l l' : List ℚ} (h : l.Perm l') (q : ℚ) : quantile l q = quantile l' q := by
  cases l with
  | nil => rw [List.nil_perm.mp h]
  | cons a l =>
    have : l' ≠ [] := by rintro rfl; exact absurd h.length_eq (by simp)
    rw [quantile_some (by simp), quantile_some this, sortQ_eq_of_perm h]

theorem quantile_affine {l : List ℚ} {a : ℚ} (ha : 0 < a) (b : ℚ) {q : ℚ}
    (h0 : 0 ≤ q) (h1 : q ≤ 1) :
    quantile (l.map (fun x => a * x + b)) q = (quantile l q).map (fun x => a * x + b) := by
  by_cases hne : l = []
  · subst hne; rfl
  · rw [quantile_some (by simpa using hne), quantile_some hne]
    simp only [Option.map_some]
    rw [sortQ_map, quantileSorted_affine (sortQ_length_pos hne) a b h0 h1]
    intro x y
    constructor
    · intro h; nlinarith
    · intro h; by_contra hc; push Not at hc; nlinarith

theorem quantile_smul {l : List ℚ} {a : ℚ} (ha : 0 < a) {q : ℚ}
    (h0 : 0 ≤ q) (h1 : q ≤ 1) :
    quantile (l.map (fun x => a * x)) q = (quantile l q).map (fun x => a * x) := by
  have := quantile_affine (l := l) ha 0 h0 h1
  simpa using this

theorem mem_le_sum_bounds {l : List ℚ} {m : ℚ} (hm : ∀ x ∈ l, m ≤ x) : m * l.length ≤ l.sum := by
  induction l with
  | nil => simp
  | cons a l ih =>
    have h1 := hm a (by simp)
    have h2 := ih (fun x hx => hm x (by simp [hx]))
    simp only [List.sum_cons, List.length_cons]; push_cast; linarith

theorem sum_le_mul_length {l : List ℚ} {m : ℚ} (hm : ∀ x ∈ l, x ≤ m) : l.sum ≤ m * l.length := by
  induction l with
  | nil => simp
  | cons a l ih =>
    have h1 := hm a (by simp)
    have h2 := ih (fun x hx => hm x (by simp [hx]))
    simp only [List.sum_cons, List.length_cons]; push_cast; linarith

theorem mean_eq_some {l : List ℚ} {v : ℚ} (h : mean l = some v) :
    l ≠ [] ∧ v = l.sum / l.length := by
  cases l with
  | nil => simp [mean] at h
  | cons a l => simp [mean] at h; exact ⟨by simp, by simpa using h.symm⟩

theorem length_pos_q {l : List ℚ} (hne : l ≠ []) : (0 : ℚ) < l.length := by
  exact_mod_cast List.length_pos_iff.mpr hne

theorem mean_ge {l : List ℚ} {v m : ℚ} (h : mean l = some v) (hm : ∀ x ∈ l, m ≤ x) : m ≤ v := by
  obtain ⟨hne, rfl⟩ := mean_eq_some h
  rw [le_div_iff₀ (length_pos_q hne)]
  exact mem_le_sum_bounds hm

theorem mean_le {l : List ℚ} {v m : ℚ} (h : mean l = some v) (hm : ∀ x ∈ l, x ≤ m) : v ≤ m := by
  obtain ⟨hne, rfl⟩ := mean_eq_some h
  rw [div_le_iff₀ (length_pos_q hne)]
  exact sum_le_mul_length hm

theorem mean_perm {l l' : List ℚ} (h : l.Perm l') : mean l = mean l' := by
  cases l with
  | nil => rw [List.nil_perm.mp h]
  | cons a l =>
    cases l' with
    | nil => exact absurd h.length_eq (by simp)
    | cons b l' =>
      unfold mean
      simp only
      rw [h.sum_eq, h.length_eq]

end Verif
