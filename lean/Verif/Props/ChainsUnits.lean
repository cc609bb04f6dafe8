import Verif.Model.ChainsNumeric
import Verif.Lemmas.ChainsTwin
import Verif.Lemmas.ClipScale
import Verif.Props.Normalize
import Verif.Props.ClipXgb
import Verif.Props.ClipLogic
import Verif.Props.Filtering
import Verif.Props.Utilities
import Verif.Lemmas.Quantile

/-!
# C108, C109: whole analyses and the unit of the power
-/

namespace Verif.Chains
open Verif.Spec
variable {Loc ρ σ : Type}

/-- a series of measurements in another unit, one old unit being `k` new ones -/
def Spec.inUnit (k : ℚ) (x : Series) : Series := x.map fun r => (r.1, r.2.map (k * ·))

/-- the user's view of a session: what each call returned, and the filters, aggregates and results stored for the two
kinds of analysis after it -/
def Spec.session (env : Env Loc ρ σ) : TA Loc ρ σ → List (Call Loc) →
    List (Except PyErr Unit × Out ρ σ × Out ρ σ)
  | _, [] => []
  | s, k :: calls =>
    ((k.run env s).1, (k.run env s).2.sensor, (k.run env s).2.clearsky) :: session env (k.run env s).2 calls

/-! ## the pieces -/

theorem finiteValues_scale (k : ℚ) (n : List (Int × Flt)) :
    finiteValues (n.map fun r => (r.1, scaleF k r.2)) = (finiteValues n).map fun c => c.map (k * ·) := by
  induction n with
  | nil => rfl
  | cons r n ih =>
    obtain ⟨t, x⟩ := r
    unfold finiteValues at ih ⊢
    rw [List.map_cons, List.filterMap_cons, List.filterMap_cons, ih]
    cases x <;> rfl

theorem div_scaleF {k : ℚ} (hk : 0 < k) (x : Flt) (q : Cell) :
    Flt.div (scaleF k x) (Flt.ofCell (q.map (k * ·))) = Flt.div x (Flt.ofCell q) := by
  cases q with
  | none => cases x <;> rfl
  | some q =>
    have hs : k * q < 0 ↔ q < 0 := by
      constructor
      · intro h; by_contra hq; push Not at hq; exact absurd h (not_lt.mpr (mul_nonneg hk.le hq))
      · intro h; exact mul_neg_of_pos_of_neg hk h
    cases x with
    | nan => rfl
    | fin a => exact Clip.ofDiv_scale hk a q
    | pinf => simp [scaleF, Flt.ofCell, Flt.div, hs]
    | ninf => simp [scaleF, Flt.ofCell, Flt.div, hs]

theorem renormalize_scale {k : ℚ} (hk : 0 < k) (n : List (Int × Flt)) :
    renormalize none (n.map fun r => (r.1, scaleF k r.2)) = renormalize none n := by
  unfold renormalize
  dsimp only
  rw [finiteValues_scale, show ((finiteValues n).map fun c => c.map (k * ·)) = Clip.scaleC k (finiteValues n) from rfl,
    Clip.robustQuantile_scale hk _ (by norm_num) (by norm_num), List.map_map]
  apply List.map_congr_left
  intro r _
  simp only [Function.comp_apply]
  rw [div_scaleF hk]

theorem mapNormalized_id {k : ℚ} (hk : 0 < k) (r : List (Int × Flt) × List (Int × Cell)) :
    mapNormalized (scaleF (1 / k)) (mapNormalized (scaleF k) r) = r := by
  obtain ⟨a, b⟩ := r
  unfold mapNormalized
  simp only [List.map_map]
  congr 1
  conv_rhs => rw [← List.map_id a]
  apply List.map_congr_left
  rintro ⟨t, x⟩ _
  cases x with
  | fin q => simp [scaleF]; field_simp
  | _ => rfl

theorem pvwattsNorm_scale {k : ℚ} (hk : 0 < k) (rated gamma : Option ℚ) (freq : List Int → Option Int)
    (energy poa tcell : Series) :
    pvwattsNorm (rated.map (k * ·)) gamma freq (scaleS k energy) poa tcell =
      pvwattsNorm rated gamma freq energy poa tcell := by
  unfold pvwattsNorm
  rw [fst_scaleS]
  cases rated with
  | none =>
    simp only [Option.map_none, Option.getD_none]
    unfold normalizeWithPvwatts
    rw [C11_measured_unit hk]
    generalize normalizeWithExpectedPower energy _ _ _ _ = R
    cases R with
    | error e => rfl
    | ok r =>
      simp only [Except.map, mapNormalized]
      rw [renormalize_scale hk]
  | some p =>
    simp only [Option.map_some, Option.getD_some]
    rw [C11_nameplate hk]
    unfold normalizeWithPvwatts
    rw [C11_measured_unit hk]
    generalize normalizeWithExpectedPower energy _ _ _ _ = R
    cases R with
    | error e => rfl
    | ok r =>
      simp only [Except.map]
      rw [mapNormalized_id hk]
      rfl

theorem expectedNorm_scale {k : ℚ} (hk : 0 < k) (freq : List Int → Option Int) (energy expected poa : Series) :
    expectedNorm freq (scaleS k energy) (scaleS k expected) poa = expectedNorm freq energy expected poa := by
  unfold expectedNorm
  rw [fst_scaleS, C11_expected_unit hk, C11_measured_unit hk]
  generalize normalizeWithExpectedPower energy _ _ _ _ = R
  cases R with
  | error e => rfl
  | ok r =>
    simp only [Except.map]
    rw [mapNormalized_id hk]

theorem clipMask_scale {k : ℚ} (hk : 0 < k) (predict : List Clip.Features → List Bool) (a : ClipArgs) (p : Series) :
    clipMask predict a (scaleS k p) = clipMask predict a p := by
  unfold clipMask
  rw [fst_scaleS]
  have : clipVerdicts predict (scaleS k p) a = clipVerdicts predict p a := by
    cases a with
    | quantile q =>
      show quantileClipFilter ((scaleS k p).map Prod.snd) q = quantileClipFilter (p.map Prod.snd) q
      rw [← (C13_quantile_filters hk (p.map Prod.snd) q).2]
      unfold scaleS
      rw [List.map_map, List.map_map]
      rfl
    | logic m cut r => exact Clip.C76_unit_independent hk p m cut r
    | xgboost m =>
      have := Clip.C83_unit_and_offset_independent predict (b := 0) hk p m
      simp only [add_zero] at this
      exact this
    | rejected e => rfl
  rw [this]

theorem regularize_scale (k : ℚ) (a : Args) (x : Option Series) :
    regularize { a with pv := scaleS k a.pv, expected := x } = (regularize a).map (scaleS k) := by
  unfold regularize
  dsimp only
  cases a.interpFreq with
  | none => rfl
  | some f =>
    dsimp only
    rw [fst_scaleS]
    by_cases h : a.pv = []
    · rw [if_pos h, if_pos (by rw [h]; rfl)]; rfl
    · rw [if_neg h, if_neg (by unfold scaleS; simpa using h), interpolateSeries_scale]

theorem ontoIndex_scale (k : ℚ) (idx : List Int) (maxTd : Option ℚ) (x : Option Series) :
    ontoIndex idx maxTd (x.map (scaleS k)) = (ontoIndex idx maxTd x).map (Option.map (scaleS k)) := by
  cases x with
  | none => rfl
  | some x =>
    unfold ontoIndex
    simp only [Option.map_some]
    rw [interpolateSeries_scale]
    cases interpolateSeries x idx maxTd <;> rfl

/-- the measurements of an object in another unit -/
def measuredIn (k : ℚ) (s : TA Loc ρ σ) : Measured :=
  ⟨s.pvPower.map (scaleS k), scaleS k s.pvEnergy, s.powerExpected.map (scaleS k)⟩

theorem construct_scale (k : ℚ) (a : Args) :
    (construct { a with pv := scaleS k a.pv, expected := a.expected.map (scaleS k) } : Except PyErr (TA Loc ρ σ)) =
      (construct a).map fun s => withMeasured (measuredIn k s) s := by
  unfold construct
  rw [regularize_scale]
  cases regularize a with
  | error e => rfl
  | ok pv =>
    simp only [Except.map, Except.bind]
    rw [fst_scaleS, ontoIndex_scale]
    cases ontoIndex (pv.map Prod.fst) a.maxTd a.poa with
    | error e => rfl
    | ok poa =>
      dsimp only
      cases ontoIndex (pv.map Prod.fst) a.maxTd a.tcell with
      | error e => rfl
      | ok tcell =>
        dsimp only
        cases ontoIndex (pv.map Prod.fst) a.maxTd a.tamb with
        | error e => rfl
        | ok tamb =>
          dsimp only
          cases ontoIndex (pv.map Prod.fst) a.maxTd a.expected with
          | error e => rfl
          | ok x =>
            simp only [Except.map]
            have fin : ∀ E : Series, (init ((if a.isPower then some pv else none : Option Series).map (scaleS k))
                (scaleS k E) poa tcell tamb (x.map (scaleS k)) a.aggDaily : TA Loc ρ σ) =
                withMeasured (measuredIn k (init (if a.isPower then some pv else none) E poa tcell tamb x a.aggDaily :
                  TA Loc ρ σ)) (init (if a.isPower then some pv else none) E poa tcell tamb x a.aggDaily) := by
              intro E
              unfold init withMeasured measuredIn
              cases x <;> rfl
            cases hp : a.isPower with
            | false =>
              simp only [Bool.false_eq_true, if_false]
              have := fin pv
              rw [hp] at this
              simpa using this
            | true =>
              simp only [if_true]
              rw [energyFromPower_scale]
              cases energyFromPower pv none a.maxTd .rightLabeled _ with
              | error e => rfl
              | ok E =>
                have := fin E
                rw [hp] at this
                simpa [Except.map] using this

theorem sameAnswers_scale {k : ℚ} (hk : 0 < k) (n : Numeric) (rest : Env Loc ρ σ) (s : TA Loc ρ σ) :
    SameAnswers (numericEnv n rest) (numericEnv { n with rated := n.rated.map (k * ·) } rest)
      ⟨s.pvPower, s.pvEnergy, s.powerExpected⟩ (measuredIn k s) where
  rest := rfl
  clip kw := by
    unfold measuredIn numericEnv
    cases s.pvPower with
    | none => rfl
    | some p => simp only [Option.map_some]; rw [clipMask_scale hk]
  norm poa tcell := (pvwattsNorm_scale hk n.rated n.gamma n.freq s.pvEnergy poa tcell).symm
  expected poa := by
    unfold measuredIn numericEnv
    cases s.powerExpected with
    | none => rfl
    | some pe => simp only [Option.map_some]; rw [expectedNorm_scale hk]

theorem session_twin {env env' : Env Loc ρ σ} {m m' : Measured} (H : SameAnswers env env' m m') :
    ∀ (calls : List (Call Loc)) (s s₂ : TA Loc ρ σ), Twin m m' s s₂ →
      Spec.session env s calls = Spec.session env' s₂ calls
  | [], _, _, _ => rfl
  | k :: calls, s, s₂, h => by
    have hr := twin_call H h k
    unfold RelAt at hr
    have e1 := hr.2.out .sensor
    have e2 := hr.2.out .clearsky
    unfold TA.out at e1 e2
    unfold Spec.session
    rw [session_twin H calls _ _ hr.2, hr.1]
    dsimp only at e1 e2
    rw [e1, e2]

/-! ## the claims -/

/-- **C108.** Give the measured power (or energy), the expected power if there is one and the nameplate power if there is
one in another unit. The constructor succeeds or fails as before, and any series of calls then gives the same outcomes
and stores the same filters, aggregates and results - for every choice of the remaining functions. -/
theorem C108_unit_of_power {k : ℚ} (hk : 0 < k) (n : Numeric) (rest : Env Loc ρ σ) (a : Args) (calls : List (Call Loc)) :
    ((construct { a with pv := Spec.inUnit k a.pv, expected := a.expected.map (Spec.inUnit k) } :
        Except PyErr (TA Loc ρ σ)).map fun s =>
      Spec.session (numericEnv { n with rated := n.rated.map (k * ·) } rest) s calls) =
    (construct a : Except PyErr (TA Loc ρ σ)).map fun s => Spec.session (numericEnv n rest) s calls := by
  have e := construct_scale (Loc := Loc) (ρ := ρ) (σ := σ) k a
  have hu : (Spec.inUnit k : Series → Series) = scaleS k := rfl
  rw [hu, e]
  generalize (construct a : Except PyErr (TA Loc ρ σ)) = X
  cases X with
  | error e => simp only [Except.map]
  | ok s =>
    simp only [Except.map]
    rw [session_twin (sameAnswers_scale hk n rest s) calls s _ ⟨rfl, rfl, rfl, rfl⟩]

/-! ## C109: the level of the normalized energy -/

/-- the finite values of a column -/
def Spec.finites (n : List (Int × Flt)) : List ℚ :=
  n.filterMap fun r => match r.2 with
    | .fin q => some q
    | _ => none

theorem finiteValues_eq (n : List (Int × Flt)) : finiteValues n = (Spec.finites n).map some := by
  induction n with
  | nil => rfl
  | cons r n ih =>
    unfold finiteValues Spec.finites at ih ⊢
    rw [List.filterMap_cons, List.filterMap_cons, ih]
    obtain ⟨t, x⟩ := r
    cases x <;> rfl

theorem robustKeep_some (l : List ℚ) {q Q : ℚ} (h : quantile l q = some Q) :
    robustKeep (l.map some) q = l.filter fun x => decide (Q / 1000 < x) := by
  have hs : robustSmall (l.map some) q = some (Q / 1000) := by
    unfold robustSmall
    rw [List.map_map, show (fun c : Cell => c.getD 0) ∘ some = id from rfl, List.map_id, h]
    rfl
  unfold robustKeep
  rw [hs]
  unfold valids
  induction l with
  | nil => rfl
  | cons a l ih =>
    have key : ∀ l : List ℚ, List.filterMap id ((l.map some).filter fun c =>
        cellCmp (fun a b => decide (a > b)) c (some (Q / 1000))) = l.filter fun x => decide (Q / 1000 < x) := by
      intro l
      induction l with
      | nil => rfl
      | cons a l ih =>
        rw [List.map_cons, List.filter_cons, List.filter_cons]
        by_cases ha : Q / 1000 < a
        · have : cellCmp (fun a b => decide (a > b)) (some a) (some (Q / 1000)) = true := by simpa [cellCmp] using ha
          rw [if_pos this, if_pos (by simpa using ha), List.filterMap_cons, ih]
          rfl
        · have : ¬ cellCmp (fun a b => decide (a > b)) (some a) (some (Q / 1000)) = true := by
            simpa [cellCmp] using ha
          rw [if_neg this, if_neg (by simpa using ha), ih]
    exact key _

/-- the values kept for the divisor are not all missing, and positive -/
theorem kept_pos {l : List ℚ} {Q : ℚ} (hQ : quantile l (95/100) = some Q) (h0 : 0 ≤ Q) (hp : ∃ x ∈ l, 0 < x) :
    ∃ F, 0 < F ∧ quantile (l.filter fun x => decide (Q / 1000 < x)) (95/100) = some F := by
  have hq : 0 ≤ Q / 1000 := by positivity
  have hne : (l.filter fun x => decide (Q / 1000 < x)) ≠ [] := by
    intro hc
    have hall : ∀ x ∈ l, x ≤ Q / 1000 := by
      intro x hx
      by_contra hlt
      push Not at hlt
      have : x ∈ l.filter fun x => decide (Q / 1000 < x) := List.mem_filter.mpr ⟨hx, by simpa using hlt⟩
      rw [hc] at this; cases this
    have h1 := quantile_le hQ (by norm_num) (by norm_num) hall
    obtain ⟨x, hx, hx0⟩ := hp
    have h2 := hall x hx
    linarith
  have hf := quantile_some hne (95/100)
  refine ⟨_, ?_, hf⟩
  obtain ⟨m, hm⟩ : ∃ m, (l.filter fun x => decide (Q / 1000 < x)).min? = some m := by
    cases h : (l.filter fun x => decide (Q / 1000 < x)).min? with
    | none => rw [List.min?_eq_none_iff] at h; exact absurd h hne
    | some m => exact ⟨m, rfl⟩
  have hmem := List.mem_filter.mp (List.min?_mem hm)
  have hmpos : 0 < m := by
    have := hmem.2
    simp only [decide_eq_true_eq] at this
    linarith
  have := quantile_ge hf (m := m) (by norm_num) (by norm_num) fun u hu => (List.le_min?_iff hm).mp le_rfl u hu
  linarith

/-- the irradiances with the temperature recorded at the same time, missing where there is none -/
def Spec.weather (poa tcell : Series) : List (Int × Cell × Cell) :=
  poa.map fun r => (r.1, r.2, (tcell.find? fun q => decide (q.1 = r.1)).bind Prod.snd)

theorem weatherRows_eq (poa tcell : Series) : weatherRows poa tcell = Spec.weather poa tcell := by
  unfold weatherRows Spec.weather
  apply List.map_congr_left
  intro r _
  have : ∀ l : Series, lookupK l r.1 = (l.find? fun q => decide (q.1 = r.1)).bind Prod.snd := by
    intro l
    induction l with
    | nil => rfl
    | cons a l ih =>
      unfold lookupK
      by_cases h : a.1 = r.1
      · simp [h]
      · simp [h, ih]
  rw [this]

/-- **C109 (the divisor).** Without a nameplate power the PVWatts-normalized energy is divided by one positive number:
the 95 % quantile of those finite values that exceed one thousandth of the 95 % quantile of all finite values - provided
the latter is not negative and some value is positive. The insolation is passed on. -/
theorem C109_divisor {gamma : Option ℚ} {freq : List Int → Option Int} {energy poa tcell : Series}
    {raw : List (Int × Flt) × List (Int × Cell)} {Q : ℚ}
    (hr : normalizeWithPvwatts energy (Spec.weather poa tcell) 1 1000 25 true gamma (freq (energy.map Prod.fst)) = .ok raw)
    (hQ : IsQuantile (Spec.finites raw.1) (95/100) Q) (h0 : 0 ≤ Q) (hp : ∃ x ∈ Spec.finites raw.1, 0 < x) :
    ∃ f : ℚ, 0 < f ∧ IsQuantile ((Spec.finites raw.1).filter fun x => decide (Q / 1000 < x)) (95/100) f ∧
      pvwattsNorm none gamma freq energy poa tcell =
        .ok (raw.1.map fun r => (r.1, match r.2 with
          | .fin x => some (x / f)
          | _ => none), raw.2) := by
  rw [← weatherRows_eq] at hr
  rw [isQuantile_iff (by norm_num) (by norm_num)] at hQ
  obtain ⟨F, hFpos, hf⟩ := kept_pos hQ h0 hp
  refine ⟨F, hFpos, (isQuantile_iff (by norm_num) (by norm_num)).mpr hf, ?_⟩
  unfold pvwattsNorm
  rw [Option.getD_none, hr]
  simp only [Except.map]
  congr 2
  unfold finiteCells renormalize
  dsimp only
  rw [finiteValues_eq]
  unfold robustQuantile
  rw [robustKeep_some _ hQ, hf, List.map_map]
  apply List.map_congr_left
  rintro ⟨t, x⟩ _
  simp only [Function.comp_apply, Flt.ofCell]
  cases x with
  | fin a => simp only [Flt.div, Flt.ofDiv, if_neg hFpos.ne', finiteCell]
  | nan => rfl
  | pinf => simp only [Flt.div, if_neg (not_lt.mpr hFpos.le), finiteCell]
  | ninf => simp only [Flt.div, if_neg (not_lt.mpr hFpos.le), finiteCell]

/-- the recorded values of a column -/
def Spec.recordedValues (x : Series) : List ℚ := x.filterMap Prod.snd

/-- **C109 (the level).** The normalized energy then has level one: the 95 % quantile of its values above one
thousandth of their 95 % quantile is 1, so that the default lower bound 0.01 of `normalized_filter` means one percent of
that level. -/
theorem C109_level {gamma : Option ℚ} {freq : List Int → Option Int} {energy poa tcell : Series}
    {raw : List (Int × Flt) × List (Int × Cell)} {Q : ℚ}
    (hr : normalizeWithPvwatts energy (Spec.weather poa tcell) 1 1000 25 true gamma (freq (energy.map Prod.fst)) = .ok raw)
    (hQ : IsQuantile (Spec.finites raw.1) (95/100) Q) (h0 : 0 ≤ Q) (hp : ∃ x ∈ Spec.finites raw.1, 0 < x)
    {out : Series × Series} (ho : pvwattsNorm none gamma freq energy poa tcell = .ok out) :
    ∃ Q' : ℚ, IsQuantile (Spec.recordedValues out.1) (95/100) Q' ∧
      IsQuantile ((Spec.recordedValues out.1).filter fun x => decide (Q' / 1000 < x)) (95/100) 1 := by
  obtain ⟨f, hf, hq, he⟩ := C109_divisor hr hQ h0 hp
  rw [he] at ho
  have ho' := Except.ok.inj ho
  subst ho'
  have hv : Spec.recordedValues (raw.1.map fun r => (r.1, match r.2 with
          | .fin x => some (x / f)
          | _ => none)) = (Spec.finites raw.1).map (1 / f * ·) := by
    generalize raw.1 = l
    unfold Spec.recordedValues Spec.finites
    rw [List.filterMap_map, List.map_filterMap]
    apply List.filterMap_congr
    rintro ⟨t, x⟩ _
    cases x with
    | fin a => simp only [Function.comp_apply, Option.map_some]; congr 1; field_simp
    | _ => rfl
  rw [isQuantile_iff (by norm_num) (by norm_num)] at hQ hq
  have hc : 0 < 1 / f := by positivity
  refine ⟨1 / f * Q, ?_, ?_⟩
  · rw [isQuantile_iff (by norm_num) (by norm_num)]
    show quantile (Spec.recordedValues _) _ = _
    rw [hv, quantile_smul hc (by norm_num) (by norm_num), hQ]
    rfl
  · rw [isQuantile_iff (by norm_num) (by norm_num)]
    show quantile ((Spec.recordedValues _).filter _) _ = _
    rw [hv]
    have hfil : ((Spec.finites raw.1).map (1 / f * ·)).filter (fun x => decide (1 / f * Q / 1000 < x)) =
        ((Spec.finites raw.1).filter fun x => decide (Q / 1000 < x)).map (1 / f * ·) := by
      rw [List.filter_map]
      congr 1
      apply List.filter_congr
      intro x _
      simp only [Function.comp_apply, decide_eq_decide]
      rw [mul_div_assoc]
      exact mul_lt_mul_iff_right₀ hc
    rw [hfil, quantile_smul hc (by norm_num) (by norm_num), hq]
    simp only [Option.map_some]
    congr 1
    field_simp

/-- **C109 (nothing to go by).** If no normalized value is finite, all of them become missing. -/
theorem C109_no_values {gamma : Option ℚ} {freq : List Int → Option Int} {energy poa tcell : Series}
    {raw : List (Int × Flt) × List (Int × Cell)}
    (hr : normalizeWithPvwatts energy (Spec.weather poa tcell) 1 1000 25 true gamma (freq (energy.map Prod.fst)) = .ok raw)
    (hn : Spec.finites raw.1 = []) :
    pvwattsNorm none gamma freq energy poa tcell = .ok (raw.1.map fun r => (r.1, none), raw.2) := by
  rw [← weatherRows_eq] at hr
  unfold pvwattsNorm
  rw [Option.getD_none, hr]
  simp only [Except.map]
  congr 2
  unfold finiteCells renormalize
  dsimp only
  rw [finiteValues_eq, hn, List.map_map]
  apply List.map_congr_left
  rintro ⟨t, x⟩ _
  cases x <;> rfl

/-! ## examples -/

/-- six hourly measurements -/
def exArgs : Args where
  pv := [(0, some 0), (3600000000000, some 300), (7200000000000, some 600), (10800000000000, some 800),
    (14400000000000, some 810), (18000000000000, some 100)]
  isPower := true
  poa := some [(0, some 0), (3600000000000, some 400), (7200000000000, some 700), (10800000000000, some 900),
    (14400000000000, some 1000), (18000000000000, some 200)]
  tcell := some [(0, some 20), (3600000000000, some 25), (7200000000000, some 30), (10800000000000, some 35),
    (14400000000000, some 35), (18000000000000, some 30)]
  tamb := none
  expected := none
  aggDaily := true
  interpFreq := none
  maxTd := none
  indexFreq := none

/-- no nameplate power, a quantile clipping filter -/
def exNumeric : Numeric where
  rated := none
  gamma := some (-1/200)
  freq _ := some 3600000000000
  predict l := l.map fun _ => false
  clipArgs _ := .quantile (98/100)

/-- simple functions for the rest -/
def exRest : Env Unit Nat Nat where
  normalizedF _ x := .ok (x.map fun r => (r.1, cellCmp (fun a b => decide (a > b)) r.2 (some (1/100))))
  poaF _ x := .ok (x.map fun r => (r.1, cellCmp (fun a b => decide (a > b)) r.2 (some 200)))
  tcellF _ x := .ok (x.map fun r => (r.1, true))
  clipF _ _ := .error .keyError
  hourAngleF _ _ _ := .error .keyError
  clearskyF _ _ _ := .error .keyError
  twoWayF _ x := .ok (x.map fun r => (r.1, true))
  insolationF _ x := .ok (x.map fun r => (r.1, true))
  hampelF _ x := .ok (x.map fun r => (r.1, true))
  tukeyF _ x := .ok (x.map fun r => (r.1, true))
  interpolate x := .ok x
  clearskyPoa _ x := .ok x
  clearskyTamb _ x := .ok x
  cellTemp x _ _ := .ok x
  pvwattsNorm _ _ _ := .error .keyError
  expectedNorm _ _ _ := .error .keyError
  aggregate x y := .ok (x, y)
  asfreq x := x
  yoy _ x := .ok x.length
  srr _ x _ := .ok x.length

/-- outcome and stored filter of a sensor soiling analysis -/
def exView (a : Args) : List (Bool × Option (List (Int × Bool))) :=
  match (construct a : Except PyErr (TA Unit Nat Nat)) with
  | .error _ => []
  | .ok s => (Spec.session (numericEnv exNumeric exRest) s [.analysis .sensor ["srr_soiling"] "" ""]).map fun x =>
      (x.1.toBool, x.2.1.mask)

/-- an hourly session in watts and in kilowatts: the analysis succeeds, the readings at the quantile limit and at low
irradiance are dropped -/
example : exView exArgs = [(true, some [(0, false), (3600000000000, true), (7200000000000, true),
      (10800000000000, true), (14400000000000, false), (18000000000000, false)])] ∧
    exView { exArgs with pv := Spec.inUnit (1/1000) exArgs.pv } = exView exArgs := by
  decide +kernel

/-- energy, irradiance and cell temperature of three hours after a night hour -/
def exHours : Series × Series × Series :=
  ([(0, some 0), (3600000000000, some 300), (7200000000000, some 600), (10800000000000, some 800)],
   [(0, some 0), (3600000000000, some 400), (7200000000000, some 700), (10800000000000, some 1000)],
   [(0, some 25), (3600000000000, some 25), (7200000000000, some 25), (10800000000000, some 25)])

/-- the hypotheses of C109: the values are 750, 857.1 and 800 with 95 % quantile 851.4 -/
example : ∃ raw, normalizeWithPvwatts exHours.1 (Spec.weather exHours.2.1 exHours.2.2) 1 1000 25 true none
      (some 3600000000000) = .ok raw ∧ Spec.finites raw.1 = [750, 6000/7, 800] ∧
    IsQuantile (Spec.finites raw.1) (95/100) (5960/7) := by
  refine ⟨([(0, .nan), (3600000000000, .fin 750), (7200000000000, .fin (6000/7)), (10800000000000, .fin 800)],
    [(0, none), (3600000000000, some 400), (7200000000000, some 700), (10800000000000, some 1000)]),
    by decide +kernel, by decide +kernel, ?_⟩
  rw [isQuantile_iff (by norm_num) (by norm_num)]
  decide +kernel

end Verif.Chains
