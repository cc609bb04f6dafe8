import Verif.Lemmas.CodsAffine
import Verif.Props.CodsRevise

/-! # C141: the Kalman filter and the origin and unit of the signal -/

namespace Verif.Cods

open Verif

/-! ## Specification -/

/-- the signal in a unit that is `s` times smaller, with the origin moved by `c` -/
def Spec.resignal (s c : ℚ) (y : List Cell) : List Cell := y.map (Option.map fun v => s * v + c)

/-- the parameters that have the unit of the signal, in that unit -/
def Spec.inUnit (s : ℚ) (o : KalmanOpts) : KalmanOpts :=
  { o with processNoise := s * o.processNoise, zsStd := s * o.zsStd, rateStd := s * o.rateStd, maxRate := s * o.maxRate }

/-- `out'` reports the result `out` in that unit: the levels and rates in the unit and the same events -/
def Spec.SameResult (s c : ℚ) (out out' : KalmanOut) : Prop :=
  out'.smooth = out.smooth.map (fun k => ⟨s * k.x + c, s * k.r⟩) ∧ out'.events = out.events ∧ out'.daysSince = out.daysSince

instance (s c : ℚ) (out out' : KalmanOut) : Decidable (Spec.SameResult s c out out') := by
  unfold Spec.SameResult; infer_instance

/-! ## Proofs -/

theorem kalmanSR_mk {o : KalmanOpts} {fuel : Nat} {zs : List Cell} {pre : Prescient} {ce : List Nat} {R : ℚ}
    {p : List Nat × List KF × ℚ × ℚ} {st : KalmanState} (h1 : startEvents zs pre = .ok ce)
    (hR : cellVar ((List.range zs.length).map fun i =>
      cellOp (fun a b => a - b) (cellAt (rollFilled o.fwd 13 zs) i) (cellAt zs i)) = some R)
    (h3 : filterPass o zs (valids (rollFilled o.fwd 7 zs)) R (initialFit zs) (truePos (soilingEvents o.fwd 5 zs)) o.zsStd o.rateStd ce
      = .ok p)
    (h4 : pruneLoop o zs (valids (rollFilled o.fwd 7 zs)) R (initialFit zs) (truePos (soilingEvents o.fwd 5 zs)) fuel 0
        ⟨p.1, p.2.1, zs.map fun _ => none, zs.map fun _ => none, p.2.2.1, p.2.2.2⟩ = .ok st)
    (h7 : (rollFilled o.fwd 7 zs).all Option.isSome = true) (h14 : ((bfill zs).take 14).all Option.isSome = true) :
    kalmanSR o fuel zs pre = .ok (kalmanOut zs.length st) := by
  unfold kalmanSR
  refine bind_ok'.mpr ⟨ce, h1, ?_⟩
  simp only [hR]
  rw [if_pos (by rw [h7, h14]; rfl)]
  exact bind_ok'.mpr ⟨p, h3, bind_ok'.mpr ⟨st, h4, rfl⟩⟩

theorem initialFit_aff {s : ℚ} (hs : 0 < s) (c : ℚ) {zs : List Cell} (h14 : ((bfill zs).take 14).all Option.isSome = true)
    (h2 : 2 ≤ zs.length) : (initialFit (Aff.cells s c zs)).slope = s * (initialFit zs).slope ∧
      (initialFit (Aff.cells s c zs)).intercept = s * (initialFit zs).intercept + c := by
  have hl : (valids ((bfill zs).take 14)).length = min 14 zs.length := by
    rw [valids_length_all h14, List.length_take, bfill_length]
  unfold initialFit Aff.cells
  rw [Aff.bfill_map, ← List.map_take, Aff.valids_map]
  have e : ((valids ((bfill zs).take 14)).map fun v => s * v + c).zipIdx.map (fun p : ℚ × Nat => ((p.2 : ℚ), p.1)) =
      ((valids ((bfill zs).take 14)).zipIdx.map fun p : ℚ × Nat => ((p.2 : ℚ), p.1)).map fun p => (p.1, s * p.2 + c) := by
    rw [List.zipIdx_map, List.map_map, List.map_map]
    rfl
  rw [e]
  refine Aff.theil_aff hs c ?_
  rw [pairSlopes_zipIdx]
  exact slopes_ne_nil (by omega)

/-- the first pass in the other unit -/
theorem first_aff {s : ℚ} (hs : 0 < s) (c : ℚ) {o : KalmanOpts} {zs : List Cell} {ce : List Nat} {R : ℚ} {a b : ℚ}
    (h7 : (rollFilled o.fwd 7 zs).all Option.isSome = true) (h14 : ((bfill zs).take 14).all Option.isSome = true)
    (h2 : 2 ≤ zs.length) :
    filterPass (Aff.opts s o) (Aff.cells s c zs) (valids (rollFilled o.fwd 7 (Aff.cells s c zs))) (s ^ 2 * R)
        (initialFit (Aff.cells s c zs)) (truePos (soilingEvents o.fwd 5 (Aff.cells s c zs))) (s * a) (s * b) ce =
      (filterPass o zs (valids (rollFilled o.fwd 7 zs)) R (initialFit zs) (truePos (soilingEvents o.fwd 5 zs)) a b ce).map fun p =>
        (p.1, p.2.1.map (Aff.kf s c), s ^ 2 * p.2.2.1, s ^ 2 * p.2.2.2) := by
  rw [Aff.rollFilled_aff hs, Aff.soilingEvents_aff hs]
  unfold Aff.cells
  rw [Aff.valids_map]
  obtain ⟨e1, e2⟩ := initialFit_aff hs c h14 h2
  exact Aff.filterPass_aff hs c o zs (by rw [valids_length_all h7, rollFilled_length]) R e1 e2 _ a b ce

theorem opts_one (o : KalmanOpts) : Aff.opts 1 o = o := by
  unfold Aff.opts
  simp only [one_mul]

/-- states that differ in the origin of the levels only -/
def OriginOf (c : ℚ) (st st' : KalmanState) : Prop :=
  st'.ce = st.ce ∧ st'.smooth = st.smooth.map (Aff.kf 1 c) ∧ st'.zsStd = st.zsStd ∧ st'.rateStd = st.rateStd

theorem finishPass_origin {c : ℚ} {o : KalmanOpts} {st st' : KalmanState} (h : OriginOf c st st') :
    OriginOf c (finishPass o st) (finishPass o st') := by
  unfold OriginOf
  rw [finishPass_ce, finishPass_ce, finishPass_smooth, finishPass_smooth, (finishPass_std o _).1, (finishPass_std o _).2,
    (finishPass_std o _).1, (finishPass_std o _).2]
  exact h

theorem pruneLoop_origin {o : KalmanOpts} {zs : List Cell} {R : ℚ} (c : ℚ)
    (h7 : (rollFilled o.fwd 7 zs).all Option.isSome = true) (h14 : ((bfill zs).take 14).all Option.isSome = true)
    (h2 : 2 ≤ zs.length) : ∀ {fuel counter : Nat} {st st2 st' : KalmanState}, OriginOf c st st2 →
      pruneLoop o zs (valids (rollFilled o.fwd 7 zs)) R (initialFit zs) (truePos (soilingEvents o.fwd 5 zs)) fuel counter st = .ok st' →
      ∃ st2', pruneLoop o (Aff.cells 1 c zs) (valids (rollFilled o.fwd 7 (Aff.cells 1 c zs))) R (initialFit (Aff.cells 1 c zs))
        (truePos (soilingEvents o.fwd 5 (Aff.cells 1 c zs))) fuel counter st2 = .ok st2' ∧ OriginOf c st' st2' := by
  intro fuel
  induction fuel with
  | zero =>
    intro counter st st2 st' hr h
    unfold pruneLoop at h ⊢
    split_ifs at h ⊢
    cases h
    exact ⟨st2, rfl, hr⟩
  | succ fuel ih =>
    intro counter st st2 st' hr h
    unfold pruneLoop at h ⊢
    by_cases hc : counter < o.pruningIterations
    · rw [if_pos hc] at h ⊢
      obtain ⟨ce, hrev, h⟩ := bind_ok'.mp h
      have hrev2 : revise o st2 = .ok ce := by
        have := Aff.revise_aff one_pos c o hr.1 hr.2.1
        rw [opts_one] at this
        rw [this]; exact hrev
      rw [hrev2]
      by_cases he : ce = st.ce
      · rw [if_pos he] at h
        obtain ⟨st2', g, g'⟩ := ih (finishPass_origin hr) h
        refine ⟨st2', ?_, g'⟩
        refine bind_ok'.mpr ⟨ce, rfl, ?_⟩
        rw [if_pos (by rw [hr.1]; exact he)]
        exact g
      · rw [if_neg he] at h
        obtain ⟨p, hpp, h⟩ := bind_ok'.mp h
        have hp2 := first_aff one_pos c (o := o) (zs := zs) (ce := ce) (R := R) (a := st.zsStd) (b := st.rateStd) h7 h14 h2
        rw [hpp, opts_one] at hp2
        simp only [one_pow, one_mul, Except.map] at hp2
        obtain ⟨st2', g, g'⟩ := ih
          (st := finishPass o ⟨p.1, p.2.1, st.ratio, st.rates, p.2.2.1, p.2.2.2⟩)
          (st2 := finishPass o ⟨p.1, p.2.1.map (Aff.kf 1 c), st2.ratio, st2.rates, p.2.2.1, p.2.2.2⟩)
          (finishPass_origin ⟨rfl, rfl, rfl, rfl⟩) h
        refine ⟨st2', ?_, g'⟩
        refine bind_ok'.mpr ⟨ce, rfl, ?_⟩
        rw [if_neg (by rw [hr.1]; exact he)]
        rw [hr.2.2.1, hr.2.2.2]
        exact bind_ok'.mpr ⟨_, hp2, g⟩
    · rw [if_neg hc] at h ⊢
      cases h
      exact ⟨st2, rfl, hr⟩

theorem zs_two {o : KalmanOpts} {zs : List Cell} {R : ℚ}
    (hR : cellVar ((List.range zs.length).map fun i =>
      cellOp (fun a b => a - b) (cellAt (rollFilled o.fwd 13 zs) i) (cellAt zs i)) = some R) : 2 ≤ zs.length := by
  have := (cellVar_two hR).1
  refine this.trans ((List.length_filterMap_le _ _).trans ?_)
  rw [List.length_map, List.length_range]

/-- **C141 (origin).** Adding a constant to the performance index adds it to the estimated levels and changes neither the rates nor
the cleaning events. -/
theorem C141_origin {o : KalmanOpts} {fuel : Nat} {zs : List Cell} {pre : Prescient} {out : KalmanOut}
    (h : kalmanSR o fuel zs pre = .ok out) (c : ℚ) :
    ∃ out', kalmanSR o fuel (Spec.resignal 1 c zs) pre = .ok out' ∧ Spec.SameResult 1 c out out' := by
  obtain ⟨ce, R, p, st, h1, hR, h3, h4, rfl, h7, h14⟩ := kalmanSR_ok h
  have h2 := zs_two hR
  have hR' := Aff.noise_aff one_pos c o.fwd 13 zs
  rw [hR] at hR'
  simp only [one_pow, Option.map_some, one_mul] at hR'
  have hp2 := first_aff one_pos c (o := o) (zs := zs) (ce := ce) (R := R) (a := o.zsStd) (b := o.rateStd) h7 h14 h2
  rw [h3, opts_one] at hp2
  simp only [one_pow, one_mul, Except.map] at hp2
  obtain ⟨st2', g, g'⟩ := pruneLoop_origin c h7 h14 h2
    (st := ⟨p.1, p.2.1, zs.map fun _ => none, zs.map fun _ => none, p.2.2.1, p.2.2.2⟩)
    (st2 := ⟨p.1, p.2.1.map (Aff.kf 1 c), (Aff.cells 1 c zs).map fun _ => none, (Aff.cells 1 c zs).map fun _ => none, p.2.2.1, p.2.2.2⟩)
    ⟨rfl, rfl, rfl, rfl⟩ h4
  have hl : (Aff.cells 1 c zs).length = zs.length := List.length_map _
  refine ⟨_, kalmanSR_mk (zs := Aff.cells 1 c zs) ((Aff.startEvents_aff one_pos c zs pre).trans h1) hR' hp2 g ?_ ?_, ?_⟩
  · rw [Aff.rollFilled_aff one_pos]; unfold Aff.cells; rw [Aff.all_isSome_map]; exact h7
  · unfold Aff.cells; rw [Aff.bfill_map, ← List.map_take, Aff.all_isSome_map]; exact h14
  · rw [hl]
    unfold Spec.SameResult kalmanOut
    rw [g'.1, g'.2.1]
    refine ⟨?_, rfl, rfl⟩
    simp only [List.map_map]
    rfl

/-- **C141 (unit, without revision).** Expressing the index and the parameters in another unit, and with another origin, only
expresses the levels and rates of the first run of the filter in that unit; the cleaning events are the same. -/
theorem C141_unit_partial {o : KalmanOpts} (ho : o.pruningIterations = 0) {fuel : Nat} {zs : List Cell} {pre : Prescient} {out : KalmanOut}
    (h : kalmanSR o fuel zs pre = .ok out) {s : ℚ} (hs : 0 < s) (c : ℚ) :
    ∃ out', kalmanSR (Spec.inUnit s o) fuel (Spec.resignal s c zs) pre = .ok out' ∧ Spec.SameResult s c out out' := by
  obtain ⟨ce, R, p, st, h1, hR, h3, h4, rfl, h7, h14⟩ := kalmanSR_ok h
  have h2 := zs_two hR
  have hR' := Aff.noise_aff hs c o.fwd 13 zs
  rw [hR] at hR'
  have hp2 := first_aff hs c (o := o) (zs := zs) (ce := ce) (R := R) (a := o.zsStd) (b := o.rateStd) h7 h14 h2
  rw [h3] at hp2
  have hend : ∀ {o : KalmanOpts} (_ : o.pruningIterations = 0) {zs : List Cell} {rm7 : List ℚ} {R : ℚ} {fit : TheilFit} {se : List Nat}
      {st : KalmanState}, pruneLoop o zs rm7 R fit se fuel 0 st = .ok st := by
    intro o ho zs rm7 R fit se st
    cases fuel <;> (unfold pruneLoop; rw [if_neg (by omega)])
  rw [hend ho] at h4
  cases h4
  have hl : (Aff.cells s c zs).length = zs.length := List.length_map _
  refine ⟨_, kalmanSR_mk (o := Spec.inUnit s o) (zs := Aff.cells s c zs) ((Aff.startEvents_aff hs c zs pre).trans h1) hR' hp2
    (hend (o := Spec.inUnit s o) ho) ?_ ?_, ?_⟩
  · show (rollFilled o.fwd 7 _).all _ = true
    rw [Aff.rollFilled_aff hs]; unfold Aff.cells; rw [Aff.all_isSome_map]; exact h7
  · unfold Aff.cells; rw [Aff.bfill_map, ← List.map_take, Aff.all_isSome_map]; exact h14
  · rw [hl]
    unfold Spec.SameResult kalmanOut
    refine ⟨?_, rfl, rfl⟩
    simp only [List.map_map]
    rfl

/-- a rise by 1/10 in two steps, without events passed -/
def exUnit : List Cell := (List.range 17).map fun i => some (if i < 8 then 9/10 else if i = 8 then 91/100 else 1)

/-- the filter finds day 9 itself, wherever the origin is -/
example : (kalmanSR {} 2 exUnit (.positions [])).map (fun o => truePos o.events) = .ok [9] ∧
    (kalmanSR {} 2 (Spec.resignal 1 (-1) exUnit) (.positions [])).map (fun o => truePos o.events) = .ok [9] := by decide +kernel

/-- its first run does not, in either unit -/
example : (kalmanSR { pruningIterations := 0 } 0 exUnit (.positions [])).map (fun o => truePos o.events) = .ok [] ∧
    (kalmanSR (Spec.inUnit 100 { pruningIterations := 0 }) 0 (Spec.resignal 100 0 exUnit) (.positions [])).map
      (fun o => truePos o.events) = .ok [] := by decide +kernel

/-- **C141 (unit).** With the revision of events, on by default, the result depends on the unit: for the signal and the parameters in
percent it is not that for fractions in percent. The second run of the filter starts with the variances of the first one as its
standard deviations. -/
theorem C141_unit_refuted :
    ∃ (zs : List Cell) (out out' : KalmanOut), kalmanSR {} 2 zs (.positions []) = .ok out ∧
      kalmanSR (Spec.inUnit 100 {}) 2 (Spec.resignal 100 0 zs) (.positions []) = .ok out' ∧ ¬Spec.SameResult 100 0 out out' := by
  have h : ∀ (a b : Except PyErr KalmanOut),
      (match a, b with
        | .ok x, .ok y => !decide (Spec.SameResult 100 0 x y)
        | _, _ => false) = true →
      ∃ x y, a = .ok x ∧ b = .ok y ∧ ¬Spec.SameResult 100 0 x y := by
    intro a b hab
    cases a with
    | error e => cases hab
    | ok x =>
      cases b with
      | error e => cases hab
      | ok y => exact ⟨x, y, rfl, rfl, by simpa using hab⟩
  exact ⟨exUnit, h _ _ (by decide +kernel)⟩

end Verif.Cods
