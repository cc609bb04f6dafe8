import Verif.Model.Rescale
import Verif.Props.Normalize
import Verif.Lemmas.Quantile
import Verif.Lemmas.Percentile

/-! # Property C101 (irradiance_rescale fits the modelled irradiance to the clear rows) -/

namespace Verif
open Spec

/-! ## Specification -/

/-- The optimizer never ends at a point with a larger objective than its start (true of Nelder–Mead, which keeps its best
point). -/
def Spec.NeverWorse (minimize : (ℚ → Cell) → Flt → Flt) : Prop :=
  ∀ (f : ℚ → Cell) (g v : ℚ), f g = some v → ∃ x w, minimize f (.fin g) = .fin x ∧ f x = some w ∧ w ≤ v

/-- The optimizer finds a global minimum of the objective whenever there is one. -/
def Spec.FindsMinimum (minimize : (ℚ → Cell) → Flt → Flt) : Prop :=
  ∀ (f : ℚ → Cell) (g : Flt) (x v : ℚ), f x = some v → (∀ y w, f y = some w → v ≤ w) →
    ∃ x', minimize f g = .fin x' ∧ f x' = some v

/-- A row with measured irradiance `a` and modelled irradiance `b` is clear for the factor `g`: more than 200 W/m², and within
20 % of `g·b`. -/
def Spec.ClearRow (g a b : ℚ) : Prop := 200 < a ∧ 0 < g * b ∧ 8 / 10 * (g * b) ≤ a ∧ a ≤ 12 / 10 * (g * b)

instance (g a b : ℚ) : Decidable (ClearRow g a b) := by unfold ClearRow; infer_instance

/-- the clear rows of a data set for the factor `g` -/
def Spec.clearPairs (g : ℚ) : List (Cell × Cell) → List (ℚ × ℚ)
  | [] => []
  | (some a, some b) :: l => if ClearRow g a b then (a, b) :: clearPairs g l else clearPairs g l
  | _ :: l => clearPairs g l

/-- sum of the squared differences between `x·modelled` and measured irradiance -/
def Spec.squares (x : ℚ) : List (ℚ × ℚ) → ℚ
  | [] => 0
  | (a, b) :: l => (x * b - a) ^ 2 + squares x l

/-- `F` is the first guess: the ratio of the 90 % quantiles -/
def Spec.IsRatio (rows : List (Cell × Cell)) (F : Flt) : Prop :=
  ∃ p q, IsQuantile (rows.filterMap Prod.fst) (9 / 10) p ∧ IsQuantile (rows.filterMap Prod.snd) (9 / 10) q ∧
    F = Flt.ofDiv p q

/-- the last change of the factor does not exceed the threshold -/
def Spec.Settled (thr : ℚ) (prev F : Flt) : Prop := Flt.lt (.fin thr) (Flt.abs (Flt.sub F prev)) = false

/-! ## Lemmas -/

theorem valids_map_fst (rows : List IrrRow) : valids (rows.map Prod.fst) = rows.filterMap Prod.fst := by
  unfold valids; rw [List.filterMap_map]; rfl

theorem valids_map_snd (rows : List IrrRow) : valids (rows.map Prod.snd) = rows.filterMap Prod.snd := by
  unfold valids; rw [List.filterMap_map]; rfl

theorem csiNear_iff {g a b : ℚ} (ha : 0 < a) :
    csiNear g (some a, some b) = true ↔ 0 < g * b ∧ 8 / 10 * (g * b) ≤ a ∧ a ≤ 12 / 10 * (g * b) := by
  unfold csiNear
  simp only [Option.map_some, Flt.ofCell, Flt.div, Flt.ofDiv]
  by_cases h0 : g * b = 0
  · rw [if_pos h0, if_neg ha.ne', if_pos ha]
    simp [Flt.le, h0]
  · rw [if_neg h0]
    simp only [Flt.le, Bool.and_eq_true, decide_eq_true_eq]
    rcases lt_or_gt_of_ne h0 with h | h
    · constructor
      · rintro ⟨h1, -⟩
        have : a / (g * b) < 0 := div_neg_of_pos_of_neg ha h
        linarith
      · rintro ⟨h1, -⟩; linarith
    · rw [le_div_iff₀ h, div_le_iff₀ h]
      exact ⟨fun hh => ⟨h, hh⟩, fun hh => hh.2⟩

theorem clearFilter_some {g a b : ℚ} : clearFilter (.fin g) (some a, some b) = true ↔ ClearRow g a b := by
  unfold clearFilter ClearRow
  simp only [cellCmp, Bool.and_eq_true, decide_eq_true_eq]
  constructor
  · rintro ⟨h1, h2⟩
    exact ⟨h2, (csiNear_iff (by linarith)).mp h1⟩
  · rintro ⟨h1, h2⟩
    exact ⟨(csiNear_iff (by linarith)).mpr h2, h1⟩

theorem csiNear_none_left (g : ℚ) (c : Cell) : csiNear g (none, c) = false := by
  unfold csiNear; simp [Flt.ofCell, Flt.div, Flt.le]

theorem csiNear_none_right (g : ℚ) (c : Cell) : csiNear g (c, none) = false := by
  unfold csiNear; cases c <;> simp [Flt.ofCell, Flt.div, Flt.le]

theorem meanSquare_clear (x g : ℚ) (rows : List IrrRow) :
    meanSquare x (rows.filter (clearFilter (.fin g))) =
      mean ((clearPairs g rows).map fun p => (x * p.2 - p.1) ^ 2) := by
  unfold meanSquare
  congr 1
  induction rows with
  | nil => rfl
  | cons r l ih =>
    obtain ⟨a, b⟩ := r
    rcases a with _ | a
    · have : clearFilter (.fin g) (none, b) = false := by simp [clearFilter, csiNear_none_left]
      rw [List.filter_cons_of_neg (by simp [this]), ih]
      rfl
    · rcases b with _ | b
      · have : clearFilter (.fin g) (some a, none) = false := by simp [clearFilter, csiNear_none_right]
        rw [List.filter_cons_of_neg (by simp [this]), ih]
        rfl
      · unfold clearPairs
        by_cases h : ClearRow g a b
        · rw [List.filter_cons_of_pos (clearFilter_some.mpr h), if_pos h, List.map_cons, List.map_cons, ← ih]
          rfl
        · rw [List.filter_cons_of_neg (fun hh => h (clearFilter_some.mp hh)), if_neg h, ih]

theorem squares_eq (x : ℚ) (l : List (ℚ × ℚ)) : (l.map fun p => (x * p.2 - p.1) ^ 2).sum = squares x l := by
  induction l with
  | nil => rfl
  | cons r l ih => rw [List.map_cons, List.sum_cons, ih]; rfl

theorem mean_squares (x : ℚ) {l : List (ℚ × ℚ)} (hl : l ≠ []) :
    mean (l.map fun p => (x * p.2 - p.1) ^ 2) = some (squares x l / l.length) := by
  rw [← squares_eq]
  cases l with
  | nil => exact absurd rfl hl
  | cons r l => unfold mean; simp

/-- the sum of squares as a quadratic polynomial -/
theorem squares_quadratic (l : List (ℚ × ℚ)) :
    ∃ A B C : ℚ, (∀ x, squares x l = x ^ 2 * C - 2 * x * B + A) ∧ B = (l.map fun p => p.1 * p.2).sum ∧
      C = (l.map fun p => p.2 ^ 2).sum := by
  induction l with
  | nil => exact ⟨0, 0, 0, fun x => by simp [squares], rfl, rfl⟩
  | cons r l ih =>
    obtain ⟨A, B, C, h, hB, hC⟩ := ih
    refine ⟨A + r.1 ^ 2, r.1 * r.2 + B, r.2 ^ 2 + C, fun x => ?_, by rw [hB]; rfl, by rw [hC]; rfl⟩
    unfold squares
    rw [h]; ring

theorem mem_clearPairs {g : ℚ} {rows : List IrrRow} {p : ℚ × ℚ} :
    p ∈ clearPairs g rows ↔ (some p.1, some p.2) ∈ rows ∧ ClearRow g p.1 p.2 := by
  induction rows with
  | nil => simp [clearPairs]
  | cons r l ih =>
    obtain ⟨a, b⟩ := r
    rcases a with _ | a
    · unfold clearPairs; rw [ih]; simp
    · rcases b with _ | b
      · unfold clearPairs; rw [ih]; simp
      · unfold clearPairs
        by_cases h : ClearRow g a b
        · rw [if_pos h, List.mem_cons, ih, List.mem_cons]
          constructor
          · rintro (h1 | h1)
            · rw [h1]; exact ⟨Or.inl rfl, h⟩
            · exact ⟨Or.inr h1.1, h1.2⟩
          · rintro ⟨h1 | h1, h2⟩
            · left
              simp only [Prod.mk.injEq, Option.some.injEq] at h1
              exact Prod.ext h1.1 h1.2
            · exact Or.inr ⟨h1, h2⟩
        · rw [if_neg h, ih, List.mem_cons]
          constructor
          · rintro ⟨h1, h2⟩; exact ⟨Or.inr h1, h2⟩
          · rintro ⟨h1 | h1, h2⟩
            · simp only [Prod.mk.injEq, Option.some.injEq] at h1
              rw [h1.1, h1.2] at h2; exact absurd h2 h
            · exact ⟨h1, h2⟩

theorem sum_sq_pos {l : List (ℚ × ℚ)} (hl : l ≠ []) (h : ∀ p ∈ l, p.2 ≠ 0) : 0 < (l.map fun p => p.2 ^ 2).sum := by
  induction l with
  | nil => exact absurd rfl hl
  | cons r l ih =>
    rw [List.map_cons, List.sum_cons]
    have h1 : 0 < r.2 ^ 2 := by
      have := h r (List.mem_cons_self ..); positivity
    have h2 : 0 ≤ (l.map fun p => p.2 ^ 2).sum := by
      apply List.sum_nonneg
      intro y hy
      obtain ⟨p, -, rfl⟩ := List.mem_map.mp hy
      positivity
    linarith

theorem sum_prod_le {l : List (ℚ × ℚ)} {c : ℚ} (h : ∀ p ∈ l, p.1 * p.2 ≤ c * p.2 ^ 2) :
    (l.map fun p => p.1 * p.2).sum ≤ c * (l.map fun p => p.2 ^ 2).sum := by
  induction l with
  | nil => simp
  | cons r l ih =>
    rw [List.map_cons, List.map_cons, List.sum_cons, List.sum_cons]
    have h1 := h r (List.mem_cons_self ..)
    have h2 := ih fun p hp => h p (List.mem_cons_of_mem _ hp)
    linarith

theorem le_sum_prod {l : List (ℚ × ℚ)} {c : ℚ} (h : ∀ p ∈ l, c * p.2 ^ 2 ≤ p.1 * p.2) :
    c * (l.map fun p => p.2 ^ 2).sum ≤ (l.map fun p => p.1 * p.2).sum := by
  induction l with
  | nil => simp
  | cons r l ih =>
    rw [List.map_cons, List.map_cons, List.sum_cons, List.sum_cons]
    have h1 := h r (List.mem_cons_self ..)
    have h2 := ih fun p hp => h p (List.mem_cons_of_mem _ hp)
    linarith

theorem rescaleGuess_ok {rows : List IrrRow} {F : Flt} (h : rescaleGuess rows = .ok F) : IsRatio rows F := by
  unfold rescaleGuess at h
  cases ha : percentileE (valids (rows.map Prod.fst)) 90 with
  | error e => rw [ha] at h; cases h
  | ok a =>
    cases hb : percentileE (valids (rows.map Prod.snd)) 90 with
    | error e => rw [ha, hb] at h; cases h
    | ok b =>
      rw [ha, hb] at h
      cases h
      obtain ⟨-, -, h1⟩ := percentileE_ok ha
      obtain ⟨-, -, h2⟩ := percentileE_ok hb
      rw [valids_map_fst] at h1
      rw [valids_map_snd] at h2
      refine ⟨a, b, (isQuantile_iff (by norm_num) (by norm_num)).mpr ?_,
        (isQuantile_iff (by norm_num) (by norm_num)).mpr ?_, rfl⟩
      · rw [← h1]; norm_num
      · rw [← h2]; norm_num

theorem percentileE_of_isQuantile {l : List ℚ} {v : ℚ} (h : IsQuantile l (9 / 10) v) : percentileE l 90 = .ok v := by
  have hq := (isQuantile_iff (by norm_num) (by norm_num)).mp h
  obtain ⟨hne, rfl⟩ := quantile_eq_some hq
  unfold percentileE
  rw [if_neg (by norm_num)]
  cases l with
  | nil => exact absurd rfl hne
  | cons a l => norm_num

theorem rescaleGuess_of {rows : List IrrRow} {p q : ℚ} (hp : IsQuantile (rows.filterMap Prod.fst) (9 / 10) p)
    (hq : IsQuantile (rows.filterMap Prod.snd) (9 / 10) q) : rescaleGuess rows = .ok (Flt.ofDiv p q) := by
  unfold rescaleGuess
  rw [valids_map_fst, valids_map_snd, percentileE_of_isQuantile hp, percentileE_of_isQuantile hq]
  rfl

/-- the iterative method in terms of its last step -/
theorem iterative_last {minimize : (ℚ → Cell) → Flt → Flt} {rows : List IrrRow} {n : Nat} {thr : ℚ} {out : List Flt}
    (h : irradianceRescaleSeries minimize .iterative rows n thr = .ok out) :
    ∃ F, out = rows.map (fun r => timesCell F r.2) ∧
      ((IsRatio rows F ∧ Settled thr (.fin 1) F) ∨
        ∃ prev, F = singleRescale minimize rows prev ∧ Settled thr prev F) := by
  unfold irradianceRescaleSeries at h
  simp only at h
  cases hg : rescaleGuess rows with
  | error e => rw [hg] at h; cases h
  | ok guess =>
    rw [hg] at h
    simp only [Except.bind] at h
    rcases C10_iterative (singleRescale minimize rows) guess thr n with ⟨k, -, -, h4, h5⟩ | ⟨-, h2⟩
    · rw [h5] at h
      simp only [Except.map, Except.ok.injEq] at h
      refine ⟨_, h.symm, ?_⟩
      cases k with
      | zero =>
        left
        exact ⟨rescaleGuess_ok hg, h4⟩
      | succ k =>
        right
        exact ⟨rescaleFactor (singleRescale minimize rows) guess k, rfl, h4⟩
    · rw [h2] at h; cases h

theorem settled_fin {thr x y : ℚ} (h : Settled thr (.fin y) (.fin x)) : |x - y| ≤ thr := by
  unfold Settled at h
  simpa [Flt.sub, Flt.abs, Flt.lt] using h

/-! ## Theorems -/

/-- **C101 (what is returned).** The iterative method returns one factor times the modelled irradiance, missing exactly where
that is missing. The factor is either the ratio of the 90 % quantiles, accepted because it is within the threshold of 1, or the
outcome of an optimization that changed it by no more than the threshold; with an optimizer that is never worse than its start,
the squared error over the rows that were clear for the previous factor is then not larger than with the previous factor. -/
theorem C101_fit {minimize : (ℚ → Cell) → Flt → Flt} (hmin : NeverWorse minimize) {rows : List (Cell × Cell)} {n : Nat}
    {thr : ℚ} {out : List Flt} (h : irradianceRescaleSeries minimize .iterative rows n thr = .ok out) :
    ∃ F, out = rows.map (fun r => timesCell F r.2) ∧
      ((IsRatio rows F ∧ Settled thr (.fin 1) F) ∨
        ∃ prev, Settled thr prev F ∧ ∀ g, prev = .fin g → clearPairs g rows ≠ [] →
          ∃ f, F = .fin f ∧ |f - g| ≤ thr ∧ squares f (clearPairs g rows) ≤ squares g (clearPairs g rows)) := by
  obtain ⟨F, h1, h2⟩ := iterative_last h
  refine ⟨F, h1, h2.imp_right ?_⟩
  rintro ⟨prev, h3, h4⟩
  refine ⟨prev, h4, ?_⟩
  rintro g rfl hne
  have hlen : (0 : ℚ) < (clearPairs g rows).length := by
    exact_mod_cast List.length_pos_iff.mpr hne
  obtain ⟨x, w, h5, h6, h7⟩ := hmin (fun x => meanSquare x (rows.filter (clearFilter (.fin g)))) g
    (squares g (clearPairs g rows) / (clearPairs g rows).length) (by
      simp only [meanSquare_clear]; exact mean_squares g hne)
  have hF : F = .fin x := h3.trans h5
  refine ⟨x, hF, settled_fin (hF ▸ h4), ?_⟩
  simp only [meanSquare_clear, mean_squares x hne, Option.some.injEq] at h6
  rw [← h6, div_le_div_iff_of_pos_right hlen] at h7
  exact h7

/-- **C101 (least squares).** With an optimizer that finds minima, a factor reached by optimization is the least-squares factor
of the rows that are clear for its predecessor, from which it differs by at most the threshold; it stays within 20 % of a
positive predecessor. -/
theorem C101_least_squares {minimize : (ℚ → Cell) → Flt → Flt} (hmin : FindsMinimum minimize) {rows : List (Cell × Cell)}
    {n : Nat} {thr : ℚ} {out : List Flt} (h : irradianceRescaleSeries minimize .iterative rows n thr = .ok out) :
    ∃ F, out = rows.map (fun r => timesCell F r.2) ∧
      ((IsRatio rows F ∧ Settled thr (.fin 1) F) ∨
        ∃ prev, Settled thr prev F ∧ ∀ g, prev = .fin g → clearPairs g rows ≠ [] →
          ∃ f, F = .fin f ∧ |f - g| ≤ thr ∧ (∀ x, squares f (clearPairs g rows) ≤ squares x (clearPairs g rows)) ∧
            (0 < g → 8 / 10 * g ≤ f ∧ f ≤ 12 / 10 * g)) := by
  obtain ⟨F, h1, h2⟩ := iterative_last h
  refine ⟨F, h1, h2.imp_right ?_⟩
  rintro ⟨prev, h3, h4⟩
  refine ⟨prev, h4, ?_⟩
  rintro g rfl hne
  have hlen : (0 : ℚ) < (clearPairs g rows).length := by
    exact_mod_cast List.length_pos_iff.mpr hne
  obtain ⟨A, B, C, hq, hB, hC⟩ := squares_quadratic (clearPairs g rows)
  have hmem : ∀ p ∈ clearPairs g rows, ClearRow g p.1 p.2 := fun p hp => (mem_clearPairs.mp hp).2
  have hC0 : 0 < C := by
    rw [hC]
    apply sum_sq_pos hne
    intro p hp h0
    have := (hmem p hp).2.1
    rw [h0, mul_zero] at this
    exact lt_irrefl _ this
  have hmin0 : ∀ y, squares (B / C) (clearPairs g rows) ≤ squares y (clearPairs g rows) := by
    intro y
    rw [hq, hq]
    have : y ^ 2 * C - 2 * y * B + A - ((B / C) ^ 2 * C - 2 * (B / C) * B + A) = C * (y - B / C) ^ 2 := by
      field_simp; ring
    have h5 : 0 ≤ C * (y - B / C) ^ 2 := by positivity
    linarith
  obtain ⟨x, h5, h6⟩ := hmin (fun x => meanSquare x (rows.filter (clearFilter (.fin g)))) (.fin g) (B / C)
    (squares (B / C) (clearPairs g rows) / (clearPairs g rows).length)
    (by simp only [meanSquare_clear]; exact mean_squares _ hne) (by
      intro y w hw
      simp only [meanSquare_clear, mean_squares y hne, Option.some.injEq] at hw
      rw [← hw, div_le_div_iff_of_pos_right hlen]
      exact hmin0 y)
  have hF : F = .fin x := h3.trans h5
  simp only [meanSquare_clear, mean_squares x hne, Option.some.injEq] at h6
  have h7 : squares x (clearPairs g rows) = squares (B / C) (clearPairs g rows) := by
    field_simp at h6; linarith
  refine ⟨x, hF, settled_fin (hF ▸ h4), fun y => h7 ▸ hmin0 y, fun hg => ?_⟩
  have hx : x = B / C := by
    rw [hq, hq] at h7
    have h8 : C * (x - B / C) ^ 2 = 0 := by
      have : x ^ 2 * C - 2 * x * B + A - ((B / C) ^ 2 * C - 2 * (B / C) * B + A) = C * (x - B / C) ^ 2 := by
        field_simp; ring
      linarith
    rcases mul_eq_zero.mp h8 with h9 | h9
    · exact absurd h9 hC0.ne'
    · have := pow_eq_zero_iff (two_ne_zero) |>.mp h9
      linarith
  rw [hx, le_div_iff₀ hC0, div_le_iff₀ hC0, hB, hC]
  have hb : ∀ p ∈ clearPairs g rows, 0 < p.2 := by
    intro p hp
    exact (mul_pos_iff_of_pos_left hg).mp (hmem p hp).2.1
  constructor
  · apply le_sum_prod
    intro p hp
    have := (hmem p hp).2.2.1
    nlinarith [hb p hp]
  · apply sum_prod_le
    intro p hp
    have := (hmem p hp).2.2.2
    nlinarith [hb p hp]

theorem isQuantile_pos_mem {l : List ℚ} {v : ℚ} (h : IsQuantile l (9 / 10) v) (hv : 0 < v) : ∃ x ∈ l, 0 < x := by
  by_contra hc
  push Not at hc
  have hq := (isQuantile_iff (by norm_num) (by norm_num)).mp h
  have := quantile_le hq (by norm_num) (by norm_num) hc
  linarith

theorem filterMap_scaled {k : ℚ} {rows : List IrrRow} (h : ∀ r ∈ rows, r.1 = r.2.map (k * ·)) :
    rows.filterMap Prod.fst = (rows.filterMap Prod.snd).map (k * ·) := by
  induction rows with
  | nil => rfl
  | cons r l ih =>
    have h1 := h r (List.mem_cons_self ..)
    have h2 := ih fun s hs => h s (List.mem_cons_of_mem _ hs)
    obtain ⟨a, b⟩ := r
    simp only at h1
    subst h1
    cases b with
    | none => simpa using h2
    | some b => simpa using h2

theorem guess_scaled {k p : ℚ} (hk : 0 < k) {rows : List IrrRow} (h : ∀ r ∈ rows, r.1 = r.2.map (k * ·))
    (hp : IsQuantile (rows.filterMap Prod.snd) (9 / 10) p) (hp0 : 0 < p) : rescaleGuess rows = .ok (.fin k) := by
  have h1 : IsQuantile (rows.filterMap Prod.fst) (9 / 10) (k * p) := by
    rw [isQuantile_iff (by norm_num) (by norm_num)] at hp ⊢
    rw [filterMap_scaled h, quantile_smul hk (by norm_num) (by norm_num), hp]
    rfl
  rw [rescaleGuess_of h1 hp, Flt.ofDiv, if_neg hp0.ne']
  congr 2
  field_simp

theorem timesCell_scaled {k : ℚ} {rows : List IrrRow} (h : ∀ r ∈ rows, r.1 = r.2.map (k * ·)) :
    rows.map (fun r => timesCell (.fin k) r.2) = rows.map (fun r => Flt.ofCell r.1) := by
  apply List.map_congr_left
  intro r hr
  rw [h r hr]
  cases r.2 <;> rfl

theorem squares_exact {k : ℚ} {l : List (ℚ × ℚ)} (h : ∀ p ∈ l, p.1 = k * p.2) : squares k l = 0 := by
  induction l with
  | nil => rfl
  | cons r l ih =>
    unfold squares
    rw [ih fun p hp => h p (List.mem_cons_of_mem _ hp), h r (List.mem_cons_self ..)]
    ring

theorem squares_exact_unique {k x : ℚ} {l : List (ℚ × ℚ)} (hne : l ≠ []) (h : ∀ p ∈ l, p.1 = k * p.2 ∧ p.2 ≠ 0)
    (hx : squares x l ≤ 0) : x = k := by
  have nonneg : ∀ l : List (ℚ × ℚ), 0 ≤ squares x l := by
    intro l
    induction l with
    | nil => exact le_refl _
    | cons r l ih => unfold squares; positivity
  cases l with
  | nil => exact absurd rfl hne
  | cons r l =>
    unfold squares at hx
    have h1 := nonneg l
    obtain ⟨h2, h3⟩ := h r (List.mem_cons_self ..)
    rw [h2] at hx
    have h4 : (x * r.2 - k * r.2) ^ 2 = 0 := le_antisymm (by linarith) (by positivity)
    have h5 := pow_eq_zero_iff (two_ne_zero) |>.mp h4
    have h6 : (x - k) * r.2 = 0 := by linarith
    rcases mul_eq_zero.mp h6 with h7 | h7
    · linarith
    · exact absurd h7 h3

/-- **C101 (exact data, iterative).** If the measurement is `k > 0` times the model on every row, the 90 % quantile of the model
is positive and some row has more than 200 W/m², the rescaled model equals the measurement on every row, after at most one
optimization. -/
theorem C101_recovers {minimize : (ℚ → Cell) → Flt → Flt} (hmin : NeverWorse minimize) {rows : List (Cell × Cell)}
    {k p : ℚ} (hk : 0 < k) (hrows : ∀ r ∈ rows, r.1 = r.2.map (k * ·))
    (hp : IsQuantile (rows.filterMap Prod.snd) (9 / 10) p) (hp0 : 0 < p)
    {a : ℚ} (ha : (some a : Cell) ∈ rows.map Prod.fst) (ha2 : 200 < a) {n : Nat} (hn : 1 ≤ n) {thr : ℚ} (ht : 0 ≤ thr) :
    irradianceRescaleSeries minimize .iterative rows n thr = .ok (rows.map fun r => Flt.ofCell r.1) := by
  have hclear : clearPairs k rows ≠ [] := by
    obtain ⟨r, hr, hra⟩ := List.mem_map.mp ha
    obtain ⟨c, b⟩ := r
    simp only at hra
    subst hra
    have h1 := hrows _ hr
    cases b with
    | none => cases h1
    | some b =>
      simp only [Option.map_some, Option.some.injEq] at h1
      have : (a, b) ∈ clearPairs k rows :=
        mem_clearPairs.mpr ⟨hr, ha2, by linarith, by linarith, by linarith⟩
      exact List.ne_nil_of_mem this
  have hall : ∀ p ∈ clearPairs k rows, p.1 = k * p.2 ∧ p.2 ≠ 0 := by
    intro p hp
    obtain ⟨h1, h2⟩ := mem_clearPairs.mp hp
    have h3 := hrows _ h1
    simp only [Option.map_some, Option.some.injEq] at h3
    refine ⟨h3, fun h4 => ?_⟩
    have := h2.2.1
    rw [h4, mul_zero] at this
    exact lt_irrefl _ this
  have hlen : (0 : ℚ) < (clearPairs k rows).length := by
    exact_mod_cast List.length_pos_iff.mpr hclear
  have hopt : singleRescale minimize rows (.fin k) = .fin k := by
    obtain ⟨x, w, h5, h6, h7⟩ := hmin (fun x => meanSquare x (rows.filter (clearFilter (.fin k)))) k 0 (by
      simp only [meanSquare_clear]
      rw [mean_squares k hclear, squares_exact fun p hp => (hall p hp).1]
      simp)
    simp only [meanSquare_clear, mean_squares x hclear, Option.some.injEq] at h6
    have h8 : squares x (clearPairs k rows) ≤ 0 := by
      rw [← h6, div_le_iff₀ hlen, zero_mul] at h7
      exact h7
    have h9 := squares_exact_unique hclear hall h8
    subst h9
    exact h5
  have hfac : ∀ j, rescaleFactor (singleRescale minimize rows) (.fin k) j = .fin k := by
    intro j
    induction j with
    | zero => rfl
    | succ j ih => rw [rescaleFactor, ih, hopt]
  unfold irradianceRescaleSeries
  simp only
  rw [guess_scaled hk hrows hp hp0]
  simp only [Except.bind]
  rcases C10_iterative (singleRescale minimize rows) (.fin k) thr n with ⟨j, -, -, -, h5⟩ | ⟨h2, -⟩
  · rw [h5, hfac]
    simp only [Except.map]
    rw [timesCell_scaled hrows]
  · exfalso
    have := h2 1 hn
    have h0 : previousFactor (singleRescale minimize rows) (.fin k) 1 = .fin k := hfac 0
    unfold stillMoving at this
    rw [hfac, h0] at this
    simp [Flt.sub, Flt.abs, Flt.lt] at this
    linarith

theorem csiNear_nonzero {x : ℚ} {r : IrrRow} (h : csiNear x r = true) : ∃ a b, r = (some a, some b) ∧ b ≠ 0 := by
  obtain ⟨a, b⟩ := r
  cases a with
  | none => rw [csiNear_none_left] at h; cases h
  | some a =>
    cases b with
    | none => rw [csiNear_none_right] at h; cases h
    | some b =>
      refine ⟨a, b, rfl, ?_⟩
      rintro rfl
      unfold csiNear at h
      simp only [Option.map_some, mul_zero, Flt.ofCell, Flt.div, Flt.ofDiv, if_true] at h
      by_cases ha : a = 0
      · simp [ha, Flt.le] at h
      · rw [if_neg ha] at h
        by_cases hp : 0 < a
        · simp [hp, Flt.le] at h
        · simp [hp, Flt.le] at h

/-- squared differences of the selected rows when the measurement is `k` times the model -/
theorem selected_squares {k x : ℚ} {rows : List IrrRow} (h : ∀ r ∈ rows, r.1 = r.2.map (k * ·)) {d : ℚ}
    (hd : d ∈ valids ((rows.filter (csiNear x)).map fun r =>
      (cellOp (fun a b => a - b) (r.2.map (x * ·)) r.1).map fun d => d ^ 2)) :
    ∃ b, b ≠ 0 ∧ d = ((x - k) * b) ^ 2 := by
  unfold valids at hd
  obtain ⟨c, hc, hcd⟩ := List.mem_filterMap.mp hd
  obtain ⟨r, hr, rfl⟩ := List.mem_map.mp hc
  obtain ⟨hr1, hr2⟩ := List.mem_filter.mp hr
  obtain ⟨a, b, rfl, hb⟩ := csiNear_nonzero hr2
  have h1 := h _ hr1
  simp only [Option.map_some, Option.some.injEq] at h1
  subst h1
  simp only [Option.map_some, cellOp, id, Option.some.injEq] at hcd
  exact ⟨b, hb, by rw [← hcd]; ring⟩

theorem sum_pos_of_pos {l : List ℚ} (hne : l ≠ []) (h : ∀ x ∈ l, 0 < x) : 0 < l.sum := by
  cases l with
  | nil => exact absurd rfl hne
  | cons a l =>
    rw [List.sum_cons]
    have h1 := h a (List.mem_cons_self ..)
    have h2 : 0 ≤ l.sum := List.sum_nonneg fun x hx => (h x (List.mem_cons_of_mem _ hx)).le
    linarith

/-- **C101 (exact data, single_opt).** The same for `method='single_opt'`, which has no irradiance threshold. -/
theorem C101_recovers_single {minimize : (ℚ → Cell) → Flt → Flt} (hmin : NeverWorse minimize) {rows : List (Cell × Cell)}
    {k p : ℚ} (hk : 0 < k) (hrows : ∀ r ∈ rows, r.1 = r.2.map (k * ·))
    (hp : IsQuantile (rows.filterMap Prod.snd) (9 / 10) p) (hp0 : 0 < p) (n : Int) (thr : ℚ) :
    irradianceRescaleSeries minimize .singleOpt rows n thr = .ok (rows.map fun r => Flt.ofCell r.1) := by
  have hval : meanSquare k (rows.filter (csiNear k)) = some 0 := by
    obtain ⟨b, hb, hb0⟩ := isQuantile_pos_mem hp hp0
    obtain ⟨r, hr, hrb⟩ := List.mem_filterMap.mp hb
    obtain ⟨a, c⟩ := r
    simp only at hrb
    subst hrb
    have h1 := hrows _ hr
    simp only [Option.map_some] at h1
    subst h1
    have hs : csiNear k (some (k * b), some b) = true := by
      have hkb : 0 < k * b := mul_pos hk hb0
      exact (csiNear_iff hkb).mpr ⟨hkb, by linarith, by linarith⟩
    unfold meanSquare
    have hmem : (0 : ℚ) ∈ valids ((rows.filter (csiNear k)).map fun r =>
        (cellOp (fun a b => a - b) (r.2.map (k * ·)) r.1).map fun d => d ^ 2) := by
      unfold valids
      refine List.mem_filterMap.mpr ⟨some 0, List.mem_map.mpr ⟨_, List.mem_filter.mpr ⟨hr, hs⟩, ?_⟩, rfl⟩
      simp [cellOp]
    have hz : ∀ d ∈ valids ((rows.filter (csiNear k)).map fun r =>
        (cellOp (fun a b => a - b) (r.2.map (k * ·)) r.1).map fun d => d ^ 2), d = 0 := by
      intro d hd
      obtain ⟨b, -, rfl⟩ := selected_squares hrows hd
      ring
    generalize valids ((rows.filter (csiNear k)).map fun r =>
        (cellOp (fun a b => a - b) (r.2.map (k * ·)) r.1).map fun d => d ^ 2) = l at hmem hz
    cases l with
    | nil => cases hmem
    | cons x l =>
      unfold mean
      rw [List.sum_eq_zero hz, zero_div]
  have hopt : singleOpt minimize rows (.fin k) = .fin k := by
    obtain ⟨x, w, h5, h6, h7⟩ := hmin (fun x => meanSquare x (rows.filter (csiNear x))) k 0 hval
    have hx : x = k := by
      by_contra hx
      unfold meanSquare at h6
      obtain ⟨hne, h8⟩ := mean_eq_some h6
      have hpos := sum_pos_of_pos hne fun d hd => by
        obtain ⟨b, hb, rfl⟩ := selected_squares hrows hd
        have : (x - k) * b ≠ 0 := mul_ne_zero (sub_ne_zero.mpr hx) hb
        positivity
      have h9 := div_pos hpos (length_pos_q hne)
      rw [← h8] at h9
      linarith
    subst hx
    exact h5
  unfold irradianceRescaleSeries
  simp only
  rw [guess_scaled hk hrows hp hp0]
  simp only [Except.bind, irradianceRescale, hopt, Except.map]
  rw [timesCell_scaled hrows]

/-- **C101 (dark data).** When more than 90 % of both series is zero, so that both quantiles vanish, the first guess is 0/0 and
the iterative method returns a series without a single value, whatever the clear rows say. -/
theorem C101_zero_quantiles {minimize : (ℚ → Cell) → Flt → Flt} {rows : List (Cell × Cell)}
    (h1 : IsQuantile (rows.filterMap Prod.fst) (9 / 10) 0) (h2 : IsQuantile (rows.filterMap Prod.snd) (9 / 10) 0)
    (n : Nat) (thr : ℚ) :
    irradianceRescaleSeries minimize .iterative rows n thr = .ok (rows.map fun _ => Flt.nan) := by
  unfold irradianceRescaleSeries
  simp only
  rw [rescaleGuess_of h1 h2]
  have : Flt.ofDiv 0 0 = .nan := rfl
  rw [this]
  simp only [Except.bind]
  rcases C10_iterative (singleRescale minimize rows) .nan thr n with ⟨j, -, h3, -, h5⟩ | ⟨h3, -⟩
  · have hj : j = 0 := by
      by_contra hj
      have := h3 0 (by omega)
      simp [stillMoving, rescaleFactor, previousFactor, Flt.sub, Flt.abs, Flt.lt] at this
    subst hj
    rw [h5]
    rfl
  · have := h3 0 (by omega)
    simp [stillMoving, rescaleFactor, previousFactor, Flt.sub, Flt.abs, Flt.lt] at this

/-- **C101 (product).** Whatever the method and the optimizer, one factor `F` multiplies the modelled irradiance row by row: a
missing row or a missing factor gives a missing value, a finite factor the product, and an infinite factor a missing value at
zero irradiance and else the infinity with the sign of the product. -/
theorem C101_product {minimize : (ℚ → Cell) → Flt → Flt} {method : RescaleMethod} {rows : List (Cell × Cell)} {n : Int}
    {thr : ℚ} {out : List Flt} (h : irradianceRescaleSeries minimize method rows n thr = .ok out) :
    out.length = rows.length ∧ ∃ F : Flt, ∀ (i : Nat) (m s : Cell), rows[i]? = some (m, s) → ∃ v, out[i]? = some v ∧
      ((s = none ∨ F = .nan) → v = .nan) ∧
      ∀ x, s = some x → (∀ q, F = .fin q → v = .fin (q * x)) ∧
        ((F = .pinf ∨ F = .ninf) → (x = 0 → v = .nan) ∧
          ((0 < x ∧ F = .pinf ∨ x < 0 ∧ F = .ninf) → v = .pinf) ∧ ((x < 0 ∧ F = .pinf ∨ 0 < x ∧ F = .ninf) → v = .ninf)) := by
  have hF : ∃ F, out = rows.map (fun r => timesCell F r.2) := by
    unfold irradianceRescaleSeries at h
    cases method with
    | other => cases h
    | iterative =>
      cases hg : rescaleGuess rows with
      | error e => rw [hg] at h; cases h
      | ok g =>
        rw [hg] at h
        simp only [Except.bind] at h
        cases hr : irradianceRescale .iterative g (singleRescale minimize rows) n thr with
        | error e => rw [hr] at h; cases h
        | ok r =>
          rw [hr] at h
          simp only [Except.map, Except.ok.injEq] at h
          exact ⟨_, h.symm⟩
    | singleOpt =>
      cases hg : rescaleGuess rows with
      | error e => rw [hg] at h; cases h
      | ok g =>
        rw [hg] at h
        simp only [Except.bind] at h
        cases hr : irradianceRescale .singleOpt g (singleOpt minimize rows) n thr with
        | error e => rw [hr] at h; cases h
        | ok r =>
          rw [hr] at h
          simp only [Except.map, Except.ok.injEq] at h
          exact ⟨_, h.symm⟩
  obtain ⟨F, rfl⟩ := hF
  refine ⟨by simp, F, fun i m s hi => ⟨timesCell F s, by simp [hi], ?_, ?_⟩⟩
  · rintro (rfl | rfl)
    · cases F <;> rfl
    · rfl
  · rintro x rfl
    refine ⟨?_, ?_⟩
    · rintro q rfl; rfl
    · rintro (rfl | rfl)
      · refine ⟨fun h0 => by simp [timesCell, h0], ?_, ?_⟩
        · rintro (⟨h0, -⟩ | ⟨-, h1⟩)
          · simp [timesCell, h0, ne_of_gt h0]
          · cases h1
        · rintro (⟨h0, -⟩ | ⟨-, h1⟩)
          · simp [timesCell, ne_of_lt h0, not_lt_of_gt h0]
          · cases h1
      · refine ⟨fun h0 => by simp [timesCell, h0], ?_, ?_⟩
        · rintro (⟨-, h1⟩ | ⟨h0, -⟩)
          · cases h1
          · simp [timesCell, ne_of_lt h0, not_lt_of_gt h0]
        · rintro (⟨-, h1⟩ | ⟨h0, -⟩)
          · cases h1
          · simp [timesCell, h0, ne_of_gt h0]

/-- an optimizer that runs away: night is missing, day infinite -/
example : irradianceRescaleSeries (fun _ _ => .pinf) .singleOpt
    [(some 0, some 0), (some 450, some 500), (none, none), (some 900, some 1000)] 1 0 =
    .ok [.nan, .pinf, .nan, .pinf] := by decide +kernel

/-! ## Examples -/

/-- optimizers that find every minimum, and are never worse than their start, exist -/
theorem exists_minimizer : ∃ minimize, FindsMinimum minimize ∧ NeverWorse minimize := by
  classical
  refine ⟨fun f g => if h : ∃ x v, f x = some v ∧ ∀ y w, f y = some w → v ≤ w then .fin h.choose else g, ?_, ?_⟩
  · intro f g x v hx hv
    have h : ∃ x v, f x = some v ∧ ∀ y w, f y = some w → v ≤ w := ⟨x, v, hx, hv⟩
    obtain ⟨v', h1, h2⟩ := h.choose_spec
    refine ⟨h.choose, dif_pos h, ?_⟩
    rw [h1, le_antisymm (h2 x v hx) (hv _ v' h1)]
  · intro f g v hg
    by_cases h : ∃ x v, f x = some v ∧ ∀ y w, f y = some w → v ≤ w
    · obtain ⟨v', h1, h2⟩ := h.choose_spec
      exact ⟨h.choose, v', dif_pos h, h1, h2 g v hg⟩
    · exact ⟨g, v, dif_neg h, hg, le_refl _⟩

/-- the optimizer that stays where it starts is never worse -/
theorem neverWorse_start : NeverWorse fun _ g => g := fun _ g v h => ⟨g, v, rfl, h, le_refl _⟩

/-- four rows, one without a model value and one too cloudy -/
def exRescale : List (Cell × Cell) :=
  [(some 900, some 1000), (some 450, some 500), (none, some 800), (some 100, some 700)]

example : clearPairs (9 / 10) exRescale = [(900, 1000), (450, 500)] := by decide +kernel
/-- the least-squares factor of the two clear rows -/
example : ∀ x, squares (9 / 10) (clearPairs (9 / 10) exRescale) ≤ squares x (clearPairs (9 / 10) exRescale) := by
  have : squares (9 / 10) (clearPairs (9 / 10) exRescale) = 0 := by decide +kernel
  intro x
  rw [this, show clearPairs (9 / 10) exRescale = [(900, 1000), (450, 500)] by decide +kernel]
  unfold squares squares squares
  positivity
/-- the iterative method returns for it, so the theorems on the returned factor apply -/
example : irradianceRescaleSeries (fun _ _ => .fin (9 / 10)) .iterative exRescale 100 (1 / 1000000) =
    .ok [.fin 900, .fin 450, .fin 720, .fin 630] := by decide +kernel
/-- a measurement 10 % below the model, a night value and a gap are recovered -/
example : irradianceRescaleSeries (fun _ g => g) .iterative
    [(some 0, some 0), (some 450, some 500), (none, none), (some 900, some 1000)] 1 0 =
    .ok [.fin 0, .fin 450, .nan, .fin 900] := by decide +kernel
/-- twenty dark rows and one clear one: nothing is returned although the clear row fixes the factor -/
example : irradianceRescaleSeries (fun _ g => g) .iterative
    (List.replicate 20 (some 0, some 0) ++ [(some 900, some 1000)]) 100 (1 / 1000000) =
    .ok (List.replicate 21 Flt.nan) := by decide +kernel

/-- the hypotheses of the recovery theorem hold for these four rows -/
example (minimize : (ℚ → Cell) → Flt → Flt) (hmin : NeverWorse minimize) :
    irradianceRescaleSeries minimize .iterative
      [(some 0, some 0), (some 450, some 500), (none, none), (some 900, some 1000)] (100 : Nat) (1 / 1000000) =
    .ok [.fin 0, .fin 450, .nan, .fin 900] :=
  C101_recovers hmin (k := 9 / 10) (p := 900) (by norm_num) (by decide +kernel)
    ((isQuantile_iff (by norm_num) (by norm_num)).mpr (by decide +kernel)) (by norm_num) (a := 900) (by decide +kernel)
    (by norm_num) (by norm_num) (by norm_num)

end Verif
