import Verif.Props.CodsFull
import Verif.Props.CodsIterate

/-! # C138, C143: the error and the residuals that `soiling_cods` reports -/

namespace Verif.Cods

open Verif

/-- `v` is the error of the reported total model: the root of the mean squared difference to the series, over the days that have
both -/
def Spec.TotalError (sqrt : ℚ → ℚ) (l total : List Cell) (v : ℚ) : Prop :=
  ∃ m, Spec.MeanOver (fun i x => ∃ y t, cellAt l i = some y ∧ cellAt total i = some t ∧ x = (y - t) ^ 2) m ∧ v = sqrt m

/-- **C138 (error).** After bootstrapping, the reported error is the root of the mean squared difference between the series and the
reported total model, over the days that have both; the residuals are the series divided by trend, season and soiling ratio, their mean
is the reported shift, and the stationarity test could be computed for them. -/
theorem C138_error {e : BootEnv} {alts : Alternatives} {reps : Nat} {conf : ℚ} {day0 : Int} {l : List Cell} {out : BootOut}
    (h : runBootstrap e alts reps conf day0 l = .ok out) (hs : out.small = false) :
      (∀ v, out.rmse = some v ↔ Spec.TotalError e.sqrt l out.table.total v) ∧
      (∀ i v, cellAt out.table.residuals i = some v ↔ ∃ y t s r, cellAt l i = some y ∧ cellAt out.table.trend i = some t ∧
        cellAt out.table.seasonal i = some s ∧ cellAt out.table.ratio i = some r ∧ t * s * r ≠ 0 ∧ v = y / (t * s * r)) ∧
      (∀ v, out.shift = some v ↔ Spec.MeanOver (fun i x => cellAt out.table.residuals i = some x) v) ∧
      ∃ p, e.adf out.table.residuals = .ok p := by
  obtain ⟨cs, df, s2, -, hf⟩ := full_of_ok h hs
  have h3 := hf.final
  unfold stage3 at h3
  split_ifs at h3
  on_goal 2 => obtain ⟨wt, -, h3⟩ := bind_ok'.mp h3; cases h3
  obtain ⟨wt, -, h3⟩ := bind_ok'.mp h3
  simp only at h3
  obtain ⟨p, hp, h3⟩ := bind_ok'.mp h3
  cases h3
  refine ⟨fun v => rmse_some, fun i v => ?_, fun v => ?_, p, hp⟩
  · simp only
    rw [cellAt_div, cellDiv_some]
    simp only [cellAt_mul, cellOp_some]
    constructor
    · rintro ⟨y, q, hy, ⟨_, r, ⟨t, s, ht, hs, rfl⟩, hr, rfl⟩, h0, rfl⟩
      exact ⟨y, t, s, r, hy, ht, hs, hr, h0, rfl⟩
    · rintro ⟨y, t, s, r, hy, ht, hs, hr, h0, rfl⟩
      exact ⟨y, _, hy, ⟨_, r, ⟨t, s, ht, hs, rfl⟩, hr, rfl⟩, h0, rfl⟩
  · simp only
    exact meanOver_cells

/-- **C143 (error).** The same for the whole analysis: the error refers to the series from its first value on, and the root and the
stationarity test are those of the packages used for the fits. -/
theorem C143_error {w : CodsWorld} {fuel : Nat} {a : CodsArgs} {reps : Nat} {conf : ℚ} {daily : Bool} {day0 : Int} {pm : List Cell}
    {out : BootOut} (h : codsAnalysis w fuel a reps conf daily day0 pm = .ok out) (hs : out.small = false) :
    ∃ d l, codsInit daily day0 pm = .ok (d, l) ∧
      (∀ v, out.rmse = some v ↔ Spec.TotalError (w.ext d).sqrt l out.table.total v) ∧
      ∃ p, (w.ext d).adf out.table.residuals = .ok p := by
  obtain ⟨d, l, hi, h⟩ := analysis_ok h
  obtain ⟨h1, -, -, h4⟩ := C138_error h hs
  exact ⟨d, l, hi, h1, h4⟩

-- residuals, shift and error of a run
example : (runBootstrap (exBoot (fun _ => false) false) {} 16 95 19000 [some 1, some 1]).map
    (fun o => (o.small, o.table.ratio, o.table.residuals.length, o.rmse.isSome)) =
      .ok (false, [some 1, some (9 / 10)], 2, true) := by decide +kernel

end Verif.Cods
