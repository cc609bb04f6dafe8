import Verif.Model.DegradationStats
import Verif.Props.Ols

/-! # Sums of the regressions -/

namespace Verif
open Spec

/-- the determinant of the normal equations -/
def olsDet (pts : List (ℚ × ℚ)) : ℚ :=
  pts.length * sumF pts (fun p => p.1 * p.1) - sumF pts (fun p => p.1) * sumF pts (fun p => p.1)

theorem olsFit_eq (pts : List (ℚ × ℚ)) :
    olsFit pts = if olsDet pts = 0 then none else some
      ((sumF pts (fun p => p.1 * p.1) * sumF pts (fun p => p.2) -
        sumF pts (fun p => p.1) * sumF pts (fun p => p.1 * p.2)) / olsDet pts,
       (pts.length * sumF pts (fun p => p.1 * p.2) -
        sumF pts (fun p => p.1) * sumF pts (fun p => p.2)) / olsDet pts) := rfl

theorem olsFit_det {pts : List (ℚ × ℚ)} {bm : ℚ × ℚ} (h : olsFit pts = some bm) :
    olsDet pts ≠ 0 ∧ bm =
      ((sumF pts (fun p => p.1 * p.1) * sumF pts (fun p => p.2) -
        sumF pts (fun p => p.1) * sumF pts (fun p => p.1 * p.2)) / olsDet pts,
       (pts.length * sumF pts (fun p => p.1 * p.2) -
        sumF pts (fun p => p.1) * sumF pts (fun p => p.2)) / olsDet pts) := by
  rw [olsFit_eq] at h
  split_ifs at h with hd
  simp only [Option.some.injEq] at h
  exact ⟨hd, h.symm⟩

theorem regressionInfo_some {pts : List (ℚ × ℚ)} {i : RegressionInfo} (h : regressionInfo pts = some i) :
    2 < pts.length ∧ olsFit pts = some (i.intercept, i.slope) ∧ olsDet pts ≠ 0 ∧
      i.rd = Flt.ofDiv (100 * i.slope) i.intercept ∧
      i.mse = sqResiduals pts i.intercept i.slope / (pts.length - 2) ∧
      i.varSlope = i.mse * (pts.length / olsDet pts) ∧
      i.varIntercept = i.mse * (sumF pts (fun p => p.1 * p.1) / olsDet pts) ∧
      i.cov = i.mse * (-sumF pts (fun p => p.1) / olsDet pts) := by
  unfold regressionInfo at h
  split_ifs at h with hn
  obtain ⟨bm, hbm, rfl⟩ := Option.map_eq_some_iff.mp h
  exact ⟨by omega, hbm, (olsFit_det hbm).1, rfl, rfl, rfl, rfl, rfl⟩

theorem regressionInfo_of_fit {pts : List (ℚ × ℚ)} {b m : ℚ} (hn : 2 < pts.length) (h : olsFit pts = some (b, m)) :
    ∃ i, regressionInfo pts = some i ∧ i.intercept = b ∧ i.slope = m := by
  unfold regressionInfo
  rw [if_neg (by omega), h]
  exact ⟨_, rfl, rfl, rfl⟩

/-- weights of the observations in the slope -/
def slopeWeight (pts : List (ℚ × ℚ)) (x : ℚ) : ℚ :=
  (pts.length * x + -sumF pts (fun p => p.1)) / olsDet pts

/-- weights of the observations in the intercept -/
def interceptWeight (pts : List (ℚ × ℚ)) (x : ℚ) : ℚ :=
  (-sumF pts (fun p => p.1) * x + sumF pts (fun p => p.1 * p.1)) / olsDet pts

theorem sum_affine (pts : List (ℚ × ℚ)) (u v d : ℚ) (f : ℚ × ℚ → ℚ) :
    sumF pts (fun p => (u * p.1 + v) / d * f p) =
      (u * sumF pts (fun p => p.1 * f p) + v * sumF pts f) / d := by
  unfold sumF
  induction pts with
  | nil => simp
  | cons p l ih => simp only [List.map_cons, List.sum_cons, ih]; ring

theorem sum_affine2 (pts : List (ℚ × ℚ)) (d u v u' v' : ℚ) :
    sumF pts (fun p => ((u * p.1 + v) / d) * ((u' * p.1 + v') / d)) =
      (u * u' * sumF pts (fun p => p.1 * p.1) + (u * v' + v * u') * sumF pts (fun p => p.1) +
        v * v' * pts.length) / (d * d) := by
  unfold sumF
  induction pts with
  | nil => simp
  | cons p l ih =>
    simp only [List.map_cons, List.sum_cons, List.length_cons]
    rw [ih]
    push_cast
    rw [div_mul_div_comm, ← add_div]
    congr 1
    ring

theorem sumF_congr_fst {pts qts : List (ℚ × ℚ)} (h : qts.map Prod.fst = pts.map Prod.fst) (f : ℚ → ℚ) :
    sumF qts (fun p => f p.1) = sumF pts (fun p => f p.1) := by
  have e : ∀ l : List (ℚ × ℚ), sumF l (fun p => f p.1) = ((l.map Prod.fst).map f).sum := by
    intro l; unfold sumF; rw [List.map_map]; rfl
  rw [e, e, h]

theorem length_of_fst {pts qts : List (ℚ × ℚ)} (h : qts.map Prod.fst = pts.map Prod.fst) :
    qts.length = pts.length := by
  have := congrArg List.length h
  simpa using this

theorem olsDet_congr {pts qts : List (ℚ × ℚ)} (h : qts.map Prod.fst = pts.map Prod.fst) :
    olsDet qts = olsDet pts := by
  unfold olsDet
  rw [sumF_congr_fst h (fun x => x * x), sumF_congr_fst h (fun x => x), length_of_fst h]

theorem weights_sums {pts : List (ℚ × ℚ)} (hd : olsDet pts ≠ 0) :
    sumF pts (fun p => slopeWeight pts p.1 * slopeWeight pts p.1) = pts.length / olsDet pts ∧
    sumF pts (fun p => interceptWeight pts p.1 * interceptWeight pts p.1) =
      sumF pts (fun p => p.1 * p.1) / olsDet pts ∧
    sumF pts (fun p => slopeWeight pts p.1 * interceptWeight pts p.1) =
      -sumF pts (fun p => p.1) / olsDet pts := by
  unfold slopeWeight interceptWeight
  simp only [sum_affine2]
  have hd' := hd
  unfold olsDet at hd'
  refine ⟨?_, ?_, ?_⟩ <;>
  · rw [div_eq_div_iff (mul_ne_zero hd hd) hd]
    unfold olsDet
    ring

/-- the fit of other observations at the same abscissae -/
theorem fit_weights {pts qts : List (ℚ × ℚ)} (h : qts.map Prod.fst = pts.map Prod.fst) {b m : ℚ}
    (hf : olsFit qts = some (b, m)) :
    m = sumF qts (fun p => slopeWeight pts p.1 * p.2) ∧ b = sumF qts (fun p => interceptWeight pts p.1 * p.2) := by
  obtain ⟨-, he⟩ := olsFit_det hf
  simp only [Prod.mk.injEq] at he
  rw [olsDet_congr h, sumF_congr_fst h (fun x => x * x), sumF_congr_fst h (fun x => x), length_of_fst h] at he
  unfold slopeWeight interceptWeight
  rw [sum_affine, sum_affine, he.1, he.2]
  constructor <;> congr 1 <;> ring

theorem sumF_sq_sub (qts : List (ℚ × ℚ)) (c : ℚ → ℚ) :
    sumF qts (fun p => (p.2 - c p.1) ^ 2) = sumF qts (fun p => p.2 * p.2) -
      2 * sumF qts (fun p => c p.1 * p.2) + sumF qts (fun p => c p.1 * c p.1) := by
  unfold sumF
  induction qts with
  | nil => simp
  | cons p l ih => simp only [List.map_cons, List.sum_cons, ih]; ring

theorem sqResiduals_fit {pts : List (ℚ × ℚ)} {b m : ℚ} (h : olsFit pts = some (b, m)) :
    sqResiduals pts b m = sumF pts (fun p => p.2 * p.2) - b * sumF pts (fun p => p.2) -
      m * sumF pts (fun p => p.1 * p.2) := by
  obtain ⟨h1, h2⟩ := olsFit_normal h
  rw [sqResiduals_expand, ← h1, ← h2]
  ring

theorem sumF_modify (pts : List (ℚ × ℚ)) (f : ℚ × ℚ → ℚ) (g : ℚ × ℚ → ℚ × ℚ) {k : Nat} (hk : k < pts.length) :
    sumF (pts.modify k g) f = sumF pts f + (f (g pts[k]) - f pts[k]) := by
  unfold sumF
  induction pts generalizing k with
  | nil => simp at hk
  | cons p l ih =>
    cases k with
    | zero => simp; ring
    | succ k =>
      have := ih (k := k) (by simpa using hk)
      simp only [List.modify_succ_cons, List.map_cons, List.sum_cons, this, List.getElem_cons_succ]
      ring

theorem sumF_range (pts : List (ℚ × ℚ)) (f : ℚ × ℚ → ℚ) :
    ((List.range pts.length).map fun k => f (pts[k]?.getD (0, 0))).sum = sumF pts f := by
  unfold sumF
  congr 1
  apply List.ext_getElem
  · simp
  · intro k h1 h2
    simp at h1
    simp [h1]

theorem fst_modify (pts : List (ℚ × ℚ)) (δ : ℚ) (k : Nat) :
    (pts.modify k fun p => (p.1, p.2 + δ)).map Prod.fst = pts.map Prod.fst := by
  induction pts generalizing k with
  | nil => cases k <;> rfl
  | cons p l ih =>
    cases k with
    | zero => simp
    | succ k => simp [ih k]

end Verif
