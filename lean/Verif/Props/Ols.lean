import Verif.Model.Degradation
import Verif.Spec.Degradation
import Verif.Lemmas.Tactics
import Verif.Lemmas.Scaling
import Verif.Lemmas.Calendar

/-! # Property C26 (ordinary least squares) -/

namespace Verif
open Spec

/-- the sums of a point set -/
def sumF (pts : List (ℚ × ℚ)) (f : ℚ × ℚ → ℚ) : ℚ := (pts.map f).sum

theorem sqResiduals_expand (pts : List (ℚ × ℚ)) (b m : ℚ) :
    sqResiduals pts b m = sumF pts (fun p => p.2 * p.2) - 2 * b * sumF pts (fun p => p.2)
      - 2 * m * sumF pts (fun p => p.1 * p.2) + pts.length * b ^ 2
      + 2 * b * m * sumF pts (fun p => p.1) + m ^ 2 * sumF pts (fun p => p.1 * p.1) := by
  unfold sqResiduals sumF
  induction pts with
  | nil => simp
  | cons p l ih =>
    simp only [List.map_cons, List.sum_cons, List.length_cons, ih]
    push_cast
    ring

theorem sq_expand (pts : List (ℚ × ℚ)) (u v : ℚ) :
    sumF pts (fun p => (u + v * p.1) ^ 2) = pts.length * u ^ 2
      + 2 * u * v * sumF pts (fun p => p.1) + v ^ 2 * sumF pts (fun p => p.1 * p.1) := by
  unfold sumF
  induction pts with
  | nil => simp
  | cons p l ih =>
    simp only [List.map_cons, List.sum_cons, List.length_cons, ih]
    push_cast
    ring

theorem sumF_nonneg {pts : List (ℚ × ℚ)} {f : ℚ × ℚ → ℚ} (h : ∀ p ∈ pts, 0 ≤ f p) :
    0 ≤ sumF pts f := by
  unfold sumF
  apply List.sum_nonneg
  intro x hx
  obtain ⟨p, hp, rfl⟩ := List.mem_map.mp hx
  exact h p hp

theorem sumF_eq_zero {pts : List (ℚ × ℚ)} {f : ℚ × ℚ → ℚ} (h : ∀ p ∈ pts, 0 ≤ f p)
    (h0 : sumF pts f = 0) : ∀ p ∈ pts, f p = 0 := by
  induction pts with
  | nil => simp
  | cons a l ih =>
    have h1 := h a (by simp)
    have h2 : 0 ≤ sumF l f := sumF_nonneg fun p hp => h p (by simp [hp])
    have h3 : f a + sumF l f = 0 := by simpa [sumF] using h0
    intro p hp
    rcases List.mem_cons.mp hp with rfl | hp
    · linarith
    · exact ih (fun p hp => h p (by simp [hp])) (by linarith) p hp

theorem olsFit_normal {pts : List (ℚ × ℚ)} {b m : ℚ} (h : olsFit pts = some (b, m)) :
    pts.length * b + m * sumF pts (fun p => p.1) = sumF pts (fun p => p.2) ∧
    b * sumF pts (fun p => p.1) + m * sumF pts (fun p => p.1 * p.1) = sumF pts (fun p => p.1 * p.2) := by
  unfold olsFit at h
  simp only at h
  split_ifs at h with hd
  simp only [Option.some.injEq, Prod.mk.injEq] at h
  obtain ⟨rfl, rfl⟩ := h
  unfold sumF
  generalize (pts.map fun p => p.1).sum = sx at *
  generalize (pts.map fun p => p.2).sum = sy at *
  generalize (pts.map fun p => p.1 * p.1).sum = sxx at *
  generalize (pts.map fun p => p.1 * p.2).sum = sxy at *
  generalize (pts.length : ℚ) = n at *
  have hd' : n * sxx - sx * sx ≠ 0 := hd
  constructor
  · rw [← mul_div_assoc, div_mul_eq_mul_div, ← add_div, div_eq_iff hd']; ring
  · rw [div_mul_eq_mul_div, div_mul_eq_mul_div, ← add_div, div_eq_iff hd']; ring

/-- **C26 (least squares).** The fitted line has the smallest sum of squared residuals, and is the only
line that does. -/
theorem C26_minimizes {pts : List (ℚ × ℚ)} {b m : ℚ} (h : olsFit pts = some (b, m)) (b' m' : ℚ) :
    sqResiduals pts b m ≤ sqResiduals pts b' m' ∧
      (sqResiduals pts b' m' ≤ sqResiduals pts b m → b' = b ∧ m' = m) := by
  obtain ⟨n1, n2⟩ := olsFit_normal h
  have key : sqResiduals pts b' m' =
      sqResiduals pts b m + sumF pts (fun p => ((b' - b) + (m' - m) * p.1) ^ 2) := by
    rw [sqResiduals_expand, sqResiduals_expand, sq_expand, ← n1, ← n2]
    ring
  have hnn : 0 ≤ sumF pts (fun p => ((b' - b) + (m' - m) * p.1) ^ 2) :=
    sumF_nonneg fun p _ => sq_nonneg _
  refine ⟨by linarith, fun hle => ?_⟩
  have h0 := sumF_eq_zero (fun p _ => sq_nonneg _) (le_antisymm (by linarith) hnn)
  -- two different abscissae, since the determinant is non-zero
  unfold olsFit at h
  simp only at h
  split_ifs at h with hd
  by_contra hcon
  apply hd
  have hlin : ∀ p ∈ pts, (b' - b) + (m' - m) * p.1 = 0 := fun p hp => by
    have := h0 p hp
    exact pow_eq_zero_iff (by norm_num) |>.mp this
  by_cases hm : m' - m = 0
  · have hb : b' - b ≠ 0 := by
      intro hb; exact hcon ⟨by linarith, by linarith⟩
    have : pts = [] := by
      cases pts with
      | nil => rfl
      | cons p l => have := hlin p (by simp); rw [hm] at this; exact absurd (by linarith) hb
    subst this; simp
  · have hx : ∀ p ∈ pts, p.1 = -(b' - b) / (m' - m) := by
      intro p hp
      have := hlin p hp
      field_simp
      linarith
    generalize -(b' - b) / (m' - m) = x at hx
    have e1 : (pts.map fun p => p.1).sum = pts.length * x := by
      clear h hd key hnn h0 hlin hle n1 n2
      induction pts with
      | nil => simp
      | cons p l ih =>
        simp only [List.map_cons, List.sum_cons, List.length_cons, ih fun q hq => hx q (by simp [hq]),
          hx p (by simp)]
        push_cast; ring
    have e2 : (pts.map fun p => p.1 * p.1).sum = pts.length * (x * x) := by
      clear h hd key hnn h0 hlin hle n1 n2
      induction pts with
      | nil => simp
      | cons p l ih =>
        simp only [List.map_cons, List.sum_cons, List.length_cons]
        rw [ih (fun q hq => hx q (by simp [hq])) (by
          have := e1
          simp only [List.map_cons, List.sum_cons, List.length_cons, hx p (by simp)] at this
          push_cast at this; linarith), hx p (by simp)]
        push_cast; ring
    rw [e1, e2]; ring

/-- With two different abscissae the fit exists. -/
theorem olsFit_isSome {pts : List (ℚ × ℚ)} {p q : ℚ × ℚ} (hp : p ∈ pts) (hq : q ∈ pts)
    (hne : p.1 ≠ q.1) : (olsFit pts).isSome = true := by
  unfold olsFit
  simp only
  rw [if_neg]
  · rfl
  · intro hd
    have e := sq_expand pts (-(pts.map fun p => p.1).sum) pts.length
    have hz : sumF pts (fun p => (-(pts.map fun p => p.1).sum + pts.length * p.1) ^ 2) = 0 := by
      rw [e]; unfold sumF
      have : (pts.length : ℚ) * (-(pts.map fun p => p.1).sum) ^ 2 +
          2 * -(pts.map fun p => p.1).sum * pts.length * (pts.map fun p => p.1).sum +
          (pts.length : ℚ) ^ 2 * (pts.map fun p => p.1 * p.1).sum =
          pts.length * (pts.length * (pts.map fun p => p.1 * p.1).sum -
            (pts.map fun p => p.1).sum * (pts.map fun p => p.1).sum) := by ring
      rw [this, hd, mul_zero]
    have h0 := sumF_eq_zero (fun p _ => sq_nonneg _) hz
    have a := pow_eq_zero_iff (by norm_num) |>.mp (h0 p hp)
    have b := pow_eq_zero_iff (by norm_num) |>.mp (h0 q hq)
    have hlen : (pts.length : ℚ) ≠ 0 := by
      have := List.length_pos_of_mem hp
      exact_mod_cast this.ne'
    apply hne
    have : (pts.length : ℚ) * (p.1 - q.1) = 0 := by linarith
    rcases mul_eq_zero.mp this with h | h
    · exact absurd h hlen
    · linarith

theorem olsFit_exact {pts : List (ℚ × ℚ)} {b m : ℚ} (h : ∀ p ∈ pts, p.2 = b + m * p.1)
    (hs : (olsFit pts).isSome = true) : olsFit pts = some (b, m) := by
  obtain ⟨⟨b0, m0⟩, hf⟩ := Option.isSome_iff_exists.mp hs
  rw [hf]
  have hz : sqResiduals pts b m = 0 := by
    unfold sqResiduals
    apply List.sum_eq_zero
    intro x hx
    obtain ⟨p, hp, rfl⟩ := List.mem_map.mp hx
    rw [h p hp]; ring
  have hnn : 0 ≤ sqResiduals pts b0 m0 := by
    unfold sqResiduals
    exact sumF_nonneg (f := fun p => (p.2 - (b0 + m0 * p.1)) ^ 2) fun p _ => sq_nonneg _
  have := (C26_minimizes hf b m).2 (by rw [hz]; exact hnn)
  rw [this.1, this.2]

/-- **C26 (exact data).** Present samples on a line with non-zero intercept at the first timestamp, at
least two of them at different times: the rate is exactly `100·m/b`, the fit is the line. -/
theorem C26_exact {s : Series} {b m : ℚ} {t0 : Int} {x0 : Cell} (hs : s.head? = some (t0, x0))
    (hb : b ≠ 0)
    (hlin : ∀ t y, (t, some y) ∈ s → y = b + m * (((t : ℚ) - t0) / (365 * dayNs)))
    {t t' : Int} {y y' : ℚ} (h1 : (t, some y) ∈ s) (h2 : (t', some y') ∈ s) (hne : t ≠ t') :
    degradationOls s = .ok (some (.fin (100 * m / b), b, m)) := by
  obtain ⟨l, rfl⟩ : ∃ l, s = (t0, x0) :: l := by
    cases s with
    | nil => simp at hs
    | cons p l => simp at hs; exact ⟨l, by rw [hs]⟩
  have hD : (dayNs : ℚ) ≠ 0 := by exact_mod_cast dayNs_pos.ne'
  have hmem : ∀ p, p ∈ olsRows ((t0, x0) :: l) ↔
      ∃ t y, (t, some y) ∈ (t0, x0) :: l ∧ p = ((((t : ℚ) - t0) / dayNs) / 365, y) := by
    intro p
    simp only [olsRows, List.mem_filterMap]
    constructor
    · rintro ⟨⟨t, x⟩, hx, hp⟩
      obtain ⟨y, hy, rfl⟩ := Option.map_eq_some_iff.mp hp
      simp only at hy
      subst hy
      exact ⟨t, y, hx, rfl⟩
    · rintro ⟨t, y, hx, rfl⟩
      exact ⟨(t, some y), hx, rfl⟩
  have hfit : olsFit (olsRows ((t0, x0) :: l)) = some (b, m) := by
    apply olsFit_exact
    · intro p hp
      obtain ⟨t, y, hx, rfl⟩ := (hmem p).mp hp
      simp only
      rw [hlin t y hx]
      field_simp
    · apply olsFit_isSome ((hmem _).mpr ⟨t, y, h1, rfl⟩) ((hmem _).mpr ⟨t', y', h2, rfl⟩)
      simp only
      intro he
      apply hne
      have : (t : ℚ) = t' := by
        field_simp at he
        linarith
      exact_mod_cast this
  unfold degradationOls
  rw [if_neg (by simp), hfit]
  simp only [Option.map_some, Flt.ofDiv, if_neg hb]

theorem sum_mul_left {α : Type} (c : ℚ) (f : α → ℚ) (l : List α) :
    (l.map fun x => c * f x).sum = c * (l.map f).sum := by
  induction l with
  | nil => simp
  | cons a l ih => simp [ih]; ring

theorem olsFit_scale (c : ℚ) (pts : List (ℚ × ℚ)) :
    olsFit (pts.map fun p => (p.1, c * p.2)) = (olsFit pts).map fun bm => (c * bm.1, c * bm.2) := by
  unfold olsFit
  have e1 : ((pts.map fun p => (p.1, c * p.2)).map fun p => p.2).sum = c * (pts.map fun p => p.2).sum := by
    rw [List.map_map, ← sum_mul_left]; rfl
  have e2 : ((pts.map fun p => (p.1, c * p.2)).map fun p => p.1 * p.2).sum =
      c * (pts.map fun p => p.1 * p.2).sum := by
    rw [List.map_map, ← sum_mul_left]
    congr 1
    apply List.map_congr_left
    intro p _
    simp only [Function.comp_apply]; ring
  have e3 : ((pts.map fun p => (p.1, c * p.2)).map fun p => p.1) = pts.map fun p => p.1 := by
    rw [List.map_map]; rfl
  have e4 : ((pts.map fun p => (p.1, c * p.2)).map fun p => p.1 * p.1) = pts.map fun p => p.1 * p.1 := by
    rw [List.map_map]; rfl
  simp only [e1, e2, e3, e4, List.length_map]
  split_ifs
  · rfl
  · simp only [Option.map_some, Option.some.injEq, Prod.mk.injEq]
    constructor <;> ring

/-- **C26 (units).** Multiplying all energies by a positive constant scales slope and intercept and
leaves the rate unchanged. -/
theorem C26_scale {c : ℚ} (hc : 0 < c) (s : Series) :
    degradationOls (scaleS c s) =
      (degradationOls s).map fun o => o.map fun x => (x.1, c * x.2.1, c * x.2.2) := by
  unfold degradationOls
  have h1 : olsRows (scaleS c s) = (olsRows s).map fun p => (p.1, c * p.2) := by
    unfold olsRows
    cases s with
    | nil => rfl
    | cons p l =>
      change List.filterMap _ (List.map _ (p :: l)) = _
      rw [List.filterMap_map, List.map_filterMap]
      apply List.filterMap_congr
      rintro ⟨t, x⟩ _
      cases x <;> rfl
  have h2 : (scaleS c s = []) = (s = []) := by simp [scaleS]
  rw [h1, olsFit_scale]
  simp only [h2]
  split_ifs
  · rfl
  · simp only [Except.map]
    cases olsFit (olsRows s) with
    | none => rfl
    | some bm =>
      obtain ⟨b, m⟩ := bm
      simp only [Option.map_some, Except.ok.injEq, Option.some.injEq, Prod.mk.injEq, and_true]
      unfold Flt.ofDiv
      by_cases hb : b = 0
      · subst hb
        rcases lt_trichotomy m 0 with hm | hm | hm
        · have : c * m < 0 := mul_neg_of_pos_of_neg hc hm
          rw [if_pos (by simp), if_pos rfl, if_neg (by linarith), if_neg (by linarith),
            if_neg (by linarith), if_neg (by linarith)]
        · subst hm; simp
        · have : 0 < c * m := mul_pos hc hm
          rw [if_pos (by simp), if_pos rfl, if_neg (by linarith), if_pos (by linarith),
            if_neg (by linarith), if_pos (by linarith)]
      · rw [if_neg (mul_ne_zero hc.ne' hb), if_neg hb]
        congr 1
        field_simp

example : degradationOls [(0, some 2), (365 * dayNs, none), (730 * dayNs, some 1), (1095 * dayNs, some (1/2))]
    = .ok (some (.fin (-25), 2, -1/2)) := by decide +kernel

example : degradationOls [(0, some 2), (365 * dayNs, some 1), (730 * dayNs, some 2)]
    = .ok (some (.fin 0, 5/3, 0)) := by decide +kernel

end Verif
