import Verif.Lemmas.Scaling
import Verif.Props.EnergyRegular

/-! # Properties C10 (irradiance_rescale) and C11 (normalization) -/

namespace Verif
open Spec

/-! ## C10 -/

/-- The sequence of factors: `rescaleFactor opt guess 0` is the initial guess, each next one the
result of one more optimization. -/
def Spec.rescaleFactor (opt : Flt → Flt) (guess : Flt) : Nat → Flt
  | 0 => guess
  | k + 1 => opt (Spec.rescaleFactor opt guess k)

/-- The factor before optimization number `k`; before the guess the code takes 1. -/
def Spec.previousFactor (opt : Flt → Flt) (guess : Flt) : Nat → Flt
  | 0 => .fin 1
  | k + 1 => Spec.rescaleFactor opt guess k

/-- The last change exceeds the threshold. -/
def Spec.stillMoving (opt : Flt → Flt) (guess : Flt) (thr : ℚ) (k : Nat) : Bool :=
  Flt.lt (.fin thr) (Flt.abs (Flt.sub (rescaleFactor opt guess k) (previousFactor opt guess k)))

theorem rescaleLoop_spec (opt : Flt → Flt) (guess : Flt) (thr : ℚ) (n j : Nat) :
    (∃ k, j ≤ k ∧ k ≤ j + n ∧ (∀ i, j ≤ i → i < k → stillMoving opt guess thr i = true) ∧
      stillMoving opt guess thr k = false ∧
      rescaleLoop opt thr n (previousFactor opt guess j) (rescaleFactor opt guess j) j =
        .ok (rescaleFactor opt guess k, previousFactor opt guess k, k)) ∨
    ((∀ i, j ≤ i → i ≤ j + n → stillMoving opt guess thr i = true) ∧
      rescaleLoop opt thr n (previousFactor opt guess j) (rescaleFactor opt guess j) j =
        .error .convergenceError) := by
  induction n generalizing j with
  | zero =>
    unfold rescaleLoop
    by_cases h : stillMoving opt guess thr j = true
    · right
      refine ⟨fun i h1 h2 => by rw [show i = j by omega]; exact h, ?_⟩
      unfold stillMoving at h
      rw [if_pos h]
    · left
      refine ⟨j, le_refl _, by omega, fun i h1 h2 => by omega, by simpa using h, ?_⟩
      unfold stillMoving at h
      rw [if_neg h]
  | succ n ih =>
    unfold rescaleLoop
    by_cases h : stillMoving opt guess thr j = true
    · have h' := h
      unfold stillMoving at h'
      rw [if_pos h']
      dsimp only
      rcases ih (j + 1) with ⟨k, h1, h2, h3, h4, h5⟩ | ⟨h1, h2⟩
      · left
        refine ⟨k, by omega, by omega, fun i hi1 hi2 => ?_, h4, h5⟩
        rcases Nat.lt_or_eq_of_le hi1 with h6 | h6
        · exact h3 i (by omega) hi2
        · rw [← h6]; exact h
      · right
        refine ⟨fun i hi1 hi2 => ?_, h2⟩
        rcases Nat.lt_or_eq_of_le hi1 with h6 | h6
        · exact h1 i (by omega) (by omega)
        · rw [← h6]; exact h
    · left
      refine ⟨j, le_refl _, by omega, fun i h1 h2 => by omega, by simpa using h, ?_⟩
      unfold stillMoving at h
      rw [if_neg h]

/-- **C10 (iterative).** For every behaviour `opt` of the optimizer, every first guess, threshold
and iteration limit: either the first `max_iterations` optimizations all move the factor by more
than the threshold and ConvergenceError is raised, or the factor returned is the first one whose
last change does not exceed the threshold, reached after at most `max_iterations` optimizations. -/
theorem C10_iterative (opt : Flt → Flt) (guess : Flt) (thr : ℚ) (n : Nat) :
    (∃ k ≤ n, (∀ i < k, stillMoving opt guess thr i = true) ∧
      stillMoving opt guess thr k = false ∧
      irradianceRescale .iterative guess opt n thr = .ok ⟨rescaleFactor opt guess k, k⟩) ∨
    ((∀ i ≤ n, stillMoving opt guess thr i = true) ∧
      irradianceRescale .iterative guess opt n thr = .error .convergenceError) := by
  unfold irradianceRescale
  dsimp only [Int.toNat_natCast]
  rcases rescaleLoop_spec opt guess thr n 0 with ⟨k, _, h2, h3, h4, h5⟩ | ⟨h1, h2⟩
  · left
    refine ⟨k, by omega, fun i hi => h3 i (by omega) hi, h4, ?_⟩
    simp only [rescaleFactor, previousFactor] at h5
    rw [h5]; rfl
  · right
    refine ⟨fun i hi => h1 i (by omega) (by omega), ?_⟩
    simp only [rescaleFactor, previousFactor] at h2
    rw [h2]; rfl

/-- **C10 (numbers).** When the returned factor and its predecessor are finite numbers, they differ
by at most the threshold. -/
theorem C10_converged {opt : Flt → Flt} {guess : Flt} {thr : ℚ} {n : Nat} {r : Rescaled}
    (h : irradianceRescale .iterative guess opt n thr = .ok r) {x y : ℚ}
    (hx : r.factor = .fin x) (hy : previousFactor opt guess r.optimizations = .fin y) :
    |x - y| ≤ thr ∧ r.optimizations ≤ n ∧ r.factor = rescaleFactor opt guess r.optimizations := by
  rcases C10_iterative opt guess thr n with ⟨k, hk, _, h4, h5⟩ | ⟨_, h2⟩
  · rw [h5] at h
    cases h
    refine ⟨?_, hk, rfl⟩
    unfold stillMoving at h4
    dsimp only at hx hy
    rw [hx, hy] at h4
    simpa [Flt.sub, Flt.abs, Flt.lt] using h4
  · rw [h2] at h; cases h

/-- **C10 (other methods).** -/
theorem C10_methods (opt : Flt → Flt) (guess : Flt) (thr : ℚ) (n : Int) :
    irradianceRescale .singleOpt guess opt n thr = .ok ⟨opt guess, 1⟩ ∧
      irradianceRescale .other guess opt n thr = .error .valueError := ⟨rfl, rfl⟩

/-- Not covered by the statement and surprising: a first guess within the threshold of 1 is returned
without a single optimization, however far the optimizer would move it. -/
theorem C10_guess_near_one_is_not_optimized (opt : Flt → Flt) {q thr : ℚ} (h : |q - 1| ≤ thr)
    (n : Nat) : irradianceRescale .iterative (.fin q) opt n thr = .ok ⟨.fin q, 0⟩ := by
  rcases C10_iterative opt (.fin q) thr n with ⟨k, _, h3, _, h5⟩ | ⟨h1, _⟩
  · have hk : k = 0 := by
      by_contra hk
      have := h3 0 (by omega)
      simp [stillMoving, rescaleFactor, previousFactor, Flt.sub, Flt.abs, Flt.lt] at this
      linarith
    subst hk; exact h5
  · have := h1 0 (by omega)
    simp [stillMoving, rescaleFactor, previousFactor, Flt.sub, Flt.abs, Flt.lt] at this
    linarith

/-- A NaN factor counts as converged: an optimizer run that fails with NaN makes the whole result
NaN instead of raising ConvergenceError. -/
theorem C10_nan_counts_as_converged (opt : Flt → Flt) {q thr : ℚ} (h : thr < |q - 1|)
    (hopt : opt (.fin q) = .nan) (n : Nat) :
    irradianceRescale .iterative (.fin q) opt (n + 1 : Nat) thr = .ok ⟨.nan, 1⟩ := by
  have h0 : stillMoving opt (.fin q) thr 0 = true := by
    simp [stillMoving, rescaleFactor, previousFactor, Flt.sub, Flt.abs, Flt.lt, h]
  have h1 : stillMoving opt (.fin q) thr 1 = false := by
    simp [stillMoving, rescaleFactor, previousFactor, hopt, Flt.sub, Flt.abs, Flt.lt]
  rcases C10_iterative opt (.fin q) thr (n + 1) with ⟨k, _, h3, h4, h5⟩ | ⟨h2, _⟩
  · have hk : k = 1 := by
      by_contra hk
      rcases Nat.lt_or_ge k 1 with h6 | h6
      · rw [show k = 0 by omega, h0] at h4; cases h4
      · rw [h3 1 (by omega)] at h1; cases h1
    subst hk
    rw [h5]
    simp [rescaleFactor, hopt]
  · rw [h2 1 (by omega)] at h1; cases h1

/-- a contracting optimizer: guess 2, halving the distance to 1.2, threshold 0.3, two runs -/
example : irradianceRescale .iterative (.fin 2)
    (fun x => match x with | .fin q => .fin ((q + 6 / 5) / 2) | y => y) 100 (3 / 10) =
    .ok ⟨.fin (7 / 5), 2⟩ := by decide +kernel
/-- an oscillating optimizer never converges -/
example : irradianceRescale .iterative (.fin 2)
    (fun x => match x with | .fin q => .fin (3 - q) | y => y) 100 (1 / 2) =
    .error .convergenceError := by decide +kernel

/-! ## C11 -/

/-- scaling of a float by a positive number -/
def Spec.scaleF (c : ℚ) : Flt → Flt
  | .fin q => .fin (c * q)
  | x => x

theorem div_scale_num {c : ℚ} (hc : 0 < c) (x y : Cell) :
    Flt.div (Flt.ofCell (x.map (c * ·))) (Flt.ofCell y) =
      scaleF c (Flt.div (Flt.ofCell x) (Flt.ofCell y)) := by
  cases x with
  | none => rfl
  | some a =>
    cases y with
    | none => rfl
    | some b =>
      simp only [Option.map_some, Flt.ofCell, Flt.div, Flt.ofDiv]
      have h0 : c * a = 0 ↔ a = 0 := by
        constructor
        · intro h; rcases mul_eq_zero.mp h with h | h
          · linarith
          · exact h
        · intro h; rw [h, mul_zero]
      have h1 : 0 < c * a ↔ 0 < a := by
        constructor
        · intro h; exact pos_of_mul_pos_right h hc.le
        · intro h; exact mul_pos hc h
      split
      · by_cases ha : a = 0
        · simp [ha, scaleF]
        · rw [if_neg (fun h => ha (h0.mp h)), if_neg ha]
          by_cases hp : 0 < a
          · rw [if_pos hp, if_pos (h1.mpr hp)]; rfl
          · rw [if_neg hp, if_neg (fun h => hp (h1.mp h))]; rfl
      · simp only [scaleF]; congr 1; ring

theorem div_scale_den {c : ℚ} (hc : 0 < c) (x y : Cell) :
    Flt.div (Flt.ofCell x) (Flt.ofCell (y.map (c * ·))) =
      scaleF (1 / c) (Flt.div (Flt.ofCell x) (Flt.ofCell y)) := by
  cases x with
  | none => rfl
  | some a =>
    cases y with
    | none => rfl
    | some b =>
      simp only [Option.map_some, Flt.ofCell, Flt.div, Flt.ofDiv]
      have h0 : c * b = 0 ↔ b = 0 := by
        constructor
        · intro h; rcases mul_eq_zero.mp h with h | h
          · linarith
          · exact h
        · intro h; rw [h, mul_zero]
      by_cases hb : b = 0
      · rw [if_pos (h0.mpr hb), if_pos hb]
        split
        · rfl
        · split <;> rfl
      · rw [if_neg (fun h => hb (h0.mp h)), if_neg hb]
        simp only [scaleF]
        congr 1
        field_simp

theorem lookupF_map (K : List (Int × Flt)) (g : Flt → Flt) (hg : g .nan = .nan) (t : Int) :
    lookupF (K.map fun r => (r.1, g r.2)) t = g (lookupF K t) := by
  induction K with
  | nil => exact hg.symm
  | cons r K ih =>
    obtain ⟨u, x⟩ := r
    simp only [List.map_cons, lookupF]
    split
    · rfl
    · exact ih

/-- the normalized column with all values changed by `g`, the insolation unchanged -/
def Spec.mapNormalized (g : Flt → Flt) (r : List (Int × Flt) × List (Int × Cell)) :
    List (Int × Flt) × List (Int × Cell) := (r.1.map fun x => (x.1, g x.2), r.2)

theorem finish_map (N : List (Int × Flt)) (insol : List (Int × Cell)) (g : Flt → Flt)
    (hg : g .nan = .nan) :
    (((sortedUnion ((N.map fun r => (r.1, g r.2)).map Prod.fst ++ insol.map Prod.fst)).map
      fun t => (t, lookupF (N.map fun r => (r.1, g r.2)) t),
      reindexK insol (sortedUnion ((N.map fun r => (r.1, g r.2)).map Prod.fst ++
        insol.map Prod.fst))) : List (Int × Flt) × List (Int × Cell)) =
    mapNormalized g ((sortedUnion (N.map Prod.fst ++ insol.map Prod.fst)).map
      fun t => (t, lookupF N t), reindexK insol (sortedUnion (N.map Prod.fst ++ insol.map Prod.fst))) := by
  have : (N.map fun r => (r.1, g r.2)).map Prod.fst = N.map Prod.fst := by
    simp [Function.comp_def]
  rw [this]
  unfold mapNormalized
  congr 1
  rw [List.map_map]
  apply List.map_congr_left
  intro t _
  simp only [Function.comp_apply]
  rw [lookupF_map _ _ hg]

theorem alignDiv_scale_num {c : ℚ} (hc : 0 < c) (a b : List (Int × Cell)) :
    alignDiv (scaleS c a) b = (alignDiv a b).map fun r => (r.1, scaleF c r.2) := by
  unfold alignDiv
  rw [fst_scaleS, List.map_map]
  apply List.map_congr_left
  intro t _
  simp only [Function.comp_apply]
  rw [lookupK_scaleS, div_scale_num hc]

theorem alignDiv_scale_den {c : ℚ} (hc : 0 < c) (a b : List (Int × Cell)) :
    alignDiv a (scaleS c b) = (alignDiv a b).map fun r => (r.1, scaleF (1 / c) r.2) := by
  unfold alignDiv
  rw [fst_scaleS, List.map_map]
  apply List.map_congr_left
  intro t _
  simp only [Function.comp_apply]
  rw [lookupK_scaleS, div_scale_den hc]

theorem normalizeEnergy_scale_num {c : ℚ} (hc : 0 < c) (energy pv expected poa : Series) (f : Int) :
    normalizeEnergy (scaleS c energy) (scaleS c pv) expected poa f =
      (normalizeEnergy energy pv expected poa f).map (mapNormalized (scaleF c)) := by
  unfold normalizeEnergy
  dsimp only
  rw [fst_scaleS, fst_scaleS]
  generalize cellCmp (fun a b => decide (a > b)) (meanDelta (expected.map Prod.fst))
    (meanDelta (energy.map Prod.fst)) = coarser
  generalize (if coarser = true then interpolateSeries expected (pv.map Prod.fst) none
    else Except.ok expected) = X1
  generalize (if coarser = true then interpolateSeries poa (pv.map Prod.fst) none
    else Except.ok poa) = X2
  cases X1 with
  | error e => rfl
  | ok expected' =>
    cases X2 with
    | error e => rfl
    | ok poa' =>
      simp only [Except.bind]
      cases energyFromPower expected' (some f) none .rightLabeled none with
      | error e => rfl
      | ok eExp =>
        dsimp only
        cases energyFromPower poa' (some f) none .rightLabeled none with
        | error e => rfl
        | ok insol =>
          dsimp only
          rw [alignDiv_scale_num hc]
          simp only [Except.map]
          rw [← finish_map (alignDiv energy eExp) insol (scaleF c) rfl]

/-- **C11 (unit of the measurement).** Multiplying the measured power or energy by `c > 0`
multiplies the normalized energy by `c`, leaves the insolation and the errors as they are. -/
theorem C11_measured_unit {c : ℚ} (hc : 0 < c) (pv expected poa : Series) (freq : Option Int)
    (input : PvInput) :
    normalizeWithExpectedPower (scaleS c pv) expected poa freq input =
      (normalizeWithExpectedPower pv expected poa freq input).map (mapNormalized (scaleF c)) := by
  unfold normalizeWithExpectedPower
  cases freq with
  | none => rfl
  | some f =>
    cases input with
    | other => rfl
    | energy => exact normalizeEnergy_scale_num hc pv pv expected poa f
    | power =>
      dsimp only
      rw [energyFromPower_scale]
      cases energyFromPower pv (some f) none .rightLabeled none with
      | error e => rfl
      | ok energy => exact normalizeEnergy_scale_num hc energy pv expected poa f

theorem normalizeEnergy_scale_den {c : ℚ} (hc : 0 < c) (energy pv expected poa : Series) (f : Int) :
    normalizeEnergy energy pv (scaleS c expected) poa f =
      (normalizeEnergy energy pv expected poa f).map (mapNormalized (scaleF (1 / c))) := by
  unfold normalizeEnergy
  dsimp only
  rw [fst_scaleS]
  generalize cellCmp (fun a b => decide (a > b)) (meanDelta (expected.map Prod.fst))
    (meanDelta (energy.map Prod.fst)) = coarser
  have hX1 : (if coarser = true then interpolateSeries (scaleS c expected) (pv.map Prod.fst) none
      else Except.ok (scaleS c expected)) =
      ((if coarser = true then interpolateSeries expected (pv.map Prod.fst) none
      else Except.ok expected).map (scaleS c) : Except PyErr Series) := by
    split
    · rw [interpolateSeries_scale]
    · rfl
  rw [hX1]
  generalize (if coarser = true then interpolateSeries expected (pv.map Prod.fst) none
    else Except.ok expected) = X1
  generalize (if coarser = true then interpolateSeries poa (pv.map Prod.fst) none
    else Except.ok poa) = X2
  cases X1 with
  | error e => rfl
  | ok expected' =>
    cases X2 with
    | error e => rfl
    | ok poa' =>
      simp only [Except.bind, Except.map]
      rw [energyFromPower_scale]
      cases energyFromPower expected' (some f) none .rightLabeled none with
      | error e => rfl
      | ok eExp =>
        simp only [Except.map]
        cases energyFromPower poa' (some f) none .rightLabeled none with
        | error e => rfl
        | ok insol =>
          dsimp only
          rw [alignDiv_scale_den hc]
          rw [← finish_map (alignDiv energy eExp) insol (scaleF (1 / c)) rfl]

/-- **C11 (unit of the model).** Multiplying the expected power by `c > 0` divides the normalized
energy by `c`. -/
theorem C11_expected_unit {c : ℚ} (hc : 0 < c) (pv expected poa : Series) (freq : Option Int)
    (input : PvInput) :
    normalizeWithExpectedPower pv (scaleS c expected) poa freq input =
      (normalizeWithExpectedPower pv expected poa freq input).map
        (mapNormalized (scaleF (1 / c))) := by
  unfold normalizeWithExpectedPower
  cases freq with
  | none => rfl
  | some f =>
    cases input with
    | other => rfl
    | energy => exact normalizeEnergy_scale_den hc pv pv expected poa f
    | power =>
      dsimp only
      cases energyFromPower pv (some f) none .rightLabeled none with
      | error e => rfl
      | ok energy => exact normalizeEnergy_scale_den hc energy pv expected poa f

/-- The PVWatts power is proportional to the nameplate power. -/
theorem pvwattsSeries_scale (c : ℚ) (rows : List (Int × Cell × Cell)) (rated poaRef tRef : ℚ)
    (useT : Bool) (gamma : Option ℚ) :
    pvwattsSeries rows (c * rated) poaRef tRef useT gamma =
      scaleS c (pvwattsSeries rows rated poaRef tRef useT gamma) := by
  unfold pvwattsSeries scaleS
  rw [List.map_map]
  apply List.map_congr_left
  intro r _
  simp only [Function.comp_apply]
  congr 1
  unfold pvwattsDcPower
  cases r.2.1 <;> cases useT <;> cases gamma <;> cases r.2.2 <;>
    simp [cellOp] <;> ring

/-- **C11 (nameplate).** Multiplying the nameplate power by `c > 0` divides the normalized energy
by `c`. -/
theorem C11_nameplate {c : ℚ} (hc : 0 < c) (energy : Series) (rows : List (Int × Cell × Cell))
    (rated poaRef tRef : ℚ) (useT : Bool) (gamma : Option ℚ) (freq : Option Int) :
    normalizeWithPvwatts energy rows (c * rated) poaRef tRef useT gamma freq =
      (normalizeWithPvwatts energy rows rated poaRef tRef useT gamma freq).map
        (mapNormalized (scaleF (1 / c))) := by
  unfold normalizeWithPvwatts
  rw [pvwattsSeries_scale, C11_expected_unit hc]

/-- **C11 (optional arguments).** Without a temperature, or without a coefficient, neither the
temperatures nor the coefficient have any influence on the normalized energy. -/
theorem C11_temperature_optional (energy : Series) {rows rows' : List (Int × Cell × Cell)}
    (hr : (rows.map fun r => (r.1, r.2.1)) = rows'.map fun r => (r.1, r.2.1))
    (rated poaRef tRef : ℚ) (gamma gamma' : Option ℚ) (freq : Option Int) :
    normalizeWithPvwatts energy rows rated poaRef tRef false gamma freq =
        normalizeWithPvwatts energy rows' rated poaRef tRef false gamma' freq ∧
      normalizeWithPvwatts energy rows rated poaRef tRef false gamma freq =
        normalizeWithPvwatts energy rows' rated poaRef tRef true none freq := by
  have key : ∀ (rs : List (Int × Cell × Cell)) (u : Bool) (g : Option ℚ), u = false ∨ g = none →
      pvwattsSeries rs rated poaRef tRef u g =
        (rs.map fun r => (r.1, r.2.1)).map fun r => (r.1, r.2.map fun x => rated * x / poaRef) := by
    intro rs u g h
    unfold pvwattsSeries pvwattsDcPower
    rw [List.map_map]
    apply List.map_congr_left
    intro r _
    rcases h with rfl | rfl
    · simp
    · cases u <;> simp
  unfold normalizeWithPvwatts
  rw [key _ _ _ (Or.inl rfl), key _ _ _ (Or.inl rfl), key _ _ _ (Or.inr rfl), hr]
  exact ⟨rfl, rfl⟩

example : ((normalizeWithPvwatts [(0, some 1), (3600000000000, some 2), (7200000000000, some 2)]
      [(0, some 500, some 20), (3600000000000, some 800, none), (7200000000000, some 900, some 40)] 1 1000 25 false (some (-1/200))
      (some 3600000000000)).toOption.isSome = true) ∧
    [((0 : Int), (some 500 : Cell), (some 20 : Cell)), (3600000000000, some 800, none)].map (fun r => (r.1, r.2.1)) =
      [((0 : Int), (some 500 : Cell), (some 35 : Cell)), (3600000000000, some 800, some 1)].map fun r => (r.1, r.2.1) := by
  decide +kernel

/-- **C11 (PVWatts equation).** With irradiance and temperature present the modelled power is
`rated · poa/ref · (1 + γ·(T - Tref))`; without a temperature or a coefficient the factor is left
out; a missing irradiance gives a missing power. -/
theorem C11_pvwatts_equation (g rated T poaRef tRef γ : ℚ) :
    pvwattsDcPower (some g) rated (some (some T)) poaRef tRef (some γ) =
        some (rated * (g / poaRef) * (1 + γ * (T - tRef))) ∧
      pvwattsDcPower (some g) rated none poaRef tRef (some γ) = some (rated * (g / poaRef)) ∧
      pvwattsDcPower (some g) rated (some (some T)) poaRef tRef none = some (rated * (g / poaRef)) ∧
      ∀ tc gam, pvwattsDcPower none rated tc poaRef tRef gam = none := by
  refine ⟨?_, ?_, ?_, ?_⟩
  · simp only [pvwattsDcPower, cellOp, Option.map_some]; congr 1; ring
  · simp only [pvwattsDcPower, Option.map_some]; congr 1; ring
  · simp only [pvwattsDcPower, Option.map_some]; congr 1; ring
  · intro tc gam
    cases tc with
    | none => rfl
    | some x => cases gam <;> rfl

theorem mean_replicate (n : Nat) (x : ℚ) : mean (List.replicate (n + 1) x) = some x := by
  simp only [mean, List.replicate_succ]
  rw [← List.replicate_succ, List.sum_replicate, List.length_replicate]
  congr 1
  have : ((n : ℚ) + 1) ≠ 0 := by positivity
  push_cast
  rw [nsmul_eq_mul]
  push_cast
  field_simp

theorem meanDelta_regular (t0 f : Int) (n : Nat) (c : Nat → Cell) :
    meanDelta ((regular t0 f (n + 2) c).map Prod.fst) = some (f : ℚ) := by
  unfold meanDelta
  rw [valids_gaps_list]
  have := indexSteps_regular t0 f (n + 1) c
  unfold indexSteps at this
  rw [this, mean_replicate]

theorem lookupF_of_mem {K : List (Int × Flt)} (hn : (K.map Prod.fst).Nodup) {t : Int} {x : Flt}
    (h : (t, x) ∈ K) : lookupF K t = x := by
  induction K with
  | nil => simp at h
  | cons r K ih =>
    obtain ⟨u, y⟩ := r
    simp only [List.map_cons, List.nodup_cons] at hn
    simp only [lookupF]
    rcases List.mem_cons.mp h with h | h
    · cases h; simp
    · rw [if_neg, ih hn.2 h]
      rintro rfl
      exact hn.1 (List.mem_map.mpr ⟨_, h, rfl⟩)

/-- **C11 (exactness).** A system that behaves exactly like the expected power gets normalized
energy 1 in every interval in which energy was expected, for regular data with any pattern of
missing samples (at least one valid sample in each series). -/
theorem C11_exact {t0 f : Int} (hf : 0 < f) (n : Nat) (c p : Nat → Cell)
    (hc : ∃ k, k < n + 3 ∧ c k ≠ none) (hp : ∃ k, k < n + 3 ∧ p k ≠ none) :
    ∃ N I, normalizeWithExpectedPower (regular t0 f (n + 3) c) (regular t0 f (n + 3) c)
        (regular t0 f (n + 3) p) (some f) .power = .ok (N, I) ∧
      ∀ k, k < n + 2 → ∀ x, c (k + 1) = some x → c k ≠ none →
        (t0 + ((k : Int) + 1) * f, if x = 0 then Flt.nan else .fin 1) ∈ N := by
  have hE : energyFromPower (regular t0 f (n + 3) c) (some f) none .rightLabeled none =
      energyFromPower (regular t0 f (n + 3) c) none none .rightLabeled none := by
    unfold energyFromPower
    have hlen : ¬ (regular t0 f (n + 3) c).length ≤ 1 := by simp [regular]
    have hmed : median (valids ((tStepNs ((regular t0 f (n + 3) c).map Prod.fst)).map Prod.snd)) =
        some (f : ℚ) := by
      unfold tStepNs
      rw [valids_gaps_list]
      have := indexSteps_regular t0 f (n + 2) c
      unfold indexSteps at this
      rw [this]
      exact median_replicate (n + 1) f
    rw [if_neg hlen, if_neg hlen]
    dsimp only
    rw [hmed]
    dsimp only [Option.getD]
    rw [Int.floor_intCast]
  have hP : energyFromPower (regular t0 f (n + 3) p) (some f) none .rightLabeled none =
      energyFromPower (regular t0 f (n + 3) p) none none .rightLabeled none := by
    unfold energyFromPower
    have hlen : ¬ (regular t0 f (n + 3) p).length ≤ 1 := by simp [regular]
    have hmed : median (valids ((tStepNs ((regular t0 f (n + 3) p).map Prod.fst)).map Prod.snd)) =
        some (f : ℚ) := by
      unfold tStepNs
      rw [valids_gaps_list]
      have := indexSteps_regular t0 f (n + 2) p
      unfold indexSteps at this
      rw [this]
      exact median_replicate (n + 1) f
    rw [if_neg hlen, if_neg hlen]
    dsimp only
    rw [hmed]
    dsimp only [Option.getD]
    rw [Int.floor_intCast]
  rw [energy_regular hf (n + 1) c hc] at hE
  rw [energy_regular hf (n + 1) p hp] at hP
  set E := regular (t0 + f) f (n + 1 + 1)
    (fun k => cellOp (fun _ y => y * f / nsPerHour) (c k) (c (k + 1))) with hEdef
  set P := regular (t0 + f) f (n + 1 + 1)
    (fun k => cellOp (fun _ y => y * f / nsPerHour) (p k) (p (k + 1))) with hPdef
  have hco : cellCmp (fun a b => decide (a > b))
      (meanDelta ((regular t0 f (n + 3) c).map Prod.fst)) (meanDelta (E.map Prod.fst)) = false := by
    rw [show n + 3 = n + 1 + 2 from rfl, meanDelta_regular, hEdef,
      show n + 1 + 1 = n + 2 from rfl, meanDelta_regular]
    simp [cellCmp]
  unfold normalizeWithExpectedPower
  dsimp only
  rw [hE]
  simp only [Except.bind, normalizeEnergy, hco, Bool.false_eq_true, if_false, hE, hP]
  refine ⟨_, _, rfl, ?_⟩
  intro k hk x hx hck
  obtain ⟨w, hw⟩ := Option.ne_none_iff_exists'.mp hck
  have hEs : StrictSorted (keys E) := regular_sorted hf _ _
  have hmem : (t0 + ((k : Int) + 1) * f, some (x * f / nsPerHour)) ∈ E := by
    rw [hEdef]
    refine mem_regular.mpr ⟨k, by omega, by ring, ?_⟩
    rw [hx, hw]; rfl
  have hin : t0 + ((k : Int) + 1) * f ∈ sortedUnion (E.map Prod.fst ++ E.map Prod.fst) := by
    rw [mem_sortedUnion, List.mem_append]
    exact Or.inl (List.mem_map.mpr ⟨_, hmem, rfl⟩)
  refine List.mem_map.mpr ⟨t0 + ((k : Int) + 1) * f, ?_, ?_⟩
  · rw [mem_sortedUnion, List.mem_append]
    left
    unfold alignDiv
    rw [List.map_map]
    exact List.mem_map.mpr ⟨_, hin, rfl⟩
  · congr 1
    have hkA : (alignDiv E E).map Prod.fst = sortedUnion (E.map Prod.fst ++ E.map Prod.fst) := by
      unfold alignDiv; rw [List.map_map]
      conv_rhs => rw [← List.map_id (sortedUnion _)]
      rfl
    apply lookupF_of_mem
    · rw [hkA]; exact (sortedUnion_sorted _).nodup
    · refine List.mem_map.mpr ⟨_, hin, ?_⟩
      congr 1
      rw [lookupK_of_mem hEs.nodup hmem]
      simp only [Flt.ofCell, Flt.div, Flt.ofDiv]
      have hfq : (f : ℚ) ≠ 0 := by exact_mod_cast hf.ne'
      have hns := nsPerHour_pos.ne'
      by_cases hx0 : x = 0
      · simp [hx0]
      · have : x * f / nsPerHour ≠ 0 := by positivity
        rw [if_neg this, if_neg hx0, div_self this]

/-- three hours of data, one missing sample and one hour at night -/
example : normalizeWithExpectedPower
    [(0, some 5), (hour, some 4), (2 * hour, some 0), (3 * hour, some 7)]
    [(0, some 5), (hour, some 8), (2 * hour, some 0), (3 * hour, some 7)]
    [(0, some 500), (hour, some 800), (2 * hour, some 0), (3 * hour, none)] (some hour) .power =
    .ok ([(hour, .fin (1 / 2)), (2 * hour, .nan), (3 * hour, .fin 1)],
      [(hour, some 800), (2 * hour, some 0), (3 * hour, none)]) := by decide +kernel
example : pvwattsSeries [(0, some 800, some 45), (1, none, some 20)] 5 1000 25 true (some (-1/200)) =
    [(0, some (18 / 5)), (1, none)] := by decide +kernel

end Verif
