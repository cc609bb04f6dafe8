import Verif.Lemmas.ChainsDaily

/-! # Lemmas about the normalized energy of an analysis -/

namespace Verif.Chains
open Verif.Spec Verif.Linear
variable {Loc σ : Type} {n : Numeric} {k : Keywords} {rest : Env Loc YoYResult σ} {c : Case}
  {env : Env Loc YoYResult σ} {s s' u : TA Loc YoYResult σ}

/-- the irradiance an analysis of case `c` worked with: measured or clear-sky -/
def Spec.irradiance (s : TA Loc YoYResult σ) : Case → Option Series
  | .sensor => s.poa
  | .clearsky => s.poaCs.bind id

/-- the cell temperature an analysis of case `c` worked with -/
def Spec.cellTemperature (s : TA Loc YoYResult σ) : Case → Option Series
  | .sensor => s.tcell
  | .clearsky => s.tcellCs.bind id

/-- the power the system is compared with: the expected power if the user gave one, otherwise PVWatts -/
def Spec.modelPower (n : Numeric) (s : TA Loc YoYResult σ) (c : Case) : Option Series :=
  match s.powerExpected with
  | some pe => some pe
  | none => (Spec.irradiance s c).bind fun g => (Spec.cellTemperature s c).map fun t =>
      pvwattsSeries (weatherRows g t) (n.rated.getD 1) 1000 25 true n.gamma

/-- `u` has the inputs of `s` -/
structure SameInputs (s u : TA Loc YoYResult σ) : Prop where
  params : (u.params = s.params ∧ u.paramsAgg = s.paramsAgg)
  poa : u.poa = s.poa
  expected : u.powerExpected = s.powerExpected
  energy : u.pvEnergy = s.pvEnergy
  tcell : u.tcell = s.tcell

theorem SameInputs.refl (s : TA Loc YoYResult σ) : SameInputs s s := ⟨⟨rfl, rfl⟩, rfl, rfl, rfl, rfl⟩

theorem ensureClearskyPoa_same (h : ensureClearskyPoa env s = (.ok ⟨⟩, u)) :
    SameInputs s u ∧ u.tcellCs = s.tcellCs := by
  unfold ensureClearskyPoa at h
  replace h := bind_ok.mp h
  obtain ⟨_, _, h0, h⟩ := h
  cases h0
  replace h := bind_ok.mp h
  obtain ⟨cs, _, h1, h⟩ := h
  obtain ⟨-, rfl⟩ := attr_ok h1
  by_cases hcs : cs.isSome = true
  · rw [if_pos hcs] at h
    cases h
    exact ⟨⟨⟨rfl, rfl⟩, rfl, rfl, rfl, rfl⟩, rfl⟩
  · rw [if_neg hcs] at h
    unfold calcClearskyPoa at h
    replace h := bind_ok.mp h
    obtain ⟨poa, _, h2, h⟩ := h
    obtain ⟨-, rfl⟩ := attr_ok h2
    replace h := bind_ok.mp h
    obtain ⟨l, _, h3, h⟩ := h
    obtain ⟨-, rfl⟩ := required_ok h3
    by_cases ht : TA.tilt (by assumption) = true
    · rw [if_pos ht] at h
      replace h := bind_ok.mp h
      obtain ⟨loc, _, h4, h⟩ := h
      obtain ⟨-, rfl⟩ := attr_ok h4
      replace h := bind_ok.mp h
      obtain ⟨v, s5, h5, h⟩ := h
      obtain ⟨-, rfl⟩ := call_ok h5
      cases h
      exact ⟨⟨⟨rfl, rfl⟩, rfl, rfl, rfl, rfl⟩, rfl⟩
    · rw [if_neg ht] at h
      cases h

/-- what an analysis hands to filtering and aggregation: the measured energy divided by the energy of the model
power, and the insolation -/
def Normalized (n : Numeric) (energy P g : Series) (scaled : Bool) (N I : Series) : Prop :=
  ∃ N0, normalizeWithExpectedPower energy P g (n.freq (energy.map Prod.fst)) .energy = .ok (N0, I) ∧
    N = finiteCells (if scaled then renormalize n.rated N0 else N0)

theorem expectedNorm_normalized {energy pe g : Series} {r : Series × Series}
    (h : expectedNorm n.freq energy pe g = .ok r) : Normalized n energy pe g false r.1 r.2 := by
  unfold expectedNorm at h
  cases hN : normalizeWithExpectedPower energy pe g (n.freq (energy.map Prod.fst)) .energy with
  | error e => rw [hN] at h; cases h
  | ok x => rw [hN] at h; cases h; exact ⟨x.1, hN, rfl⟩

theorem pvwattsNorm_normalized {energy g t : Series} {r : Series × Series}
    (h : pvwattsNorm n.rated n.gamma n.freq energy g t = .ok r) :
    Normalized n energy (pvwattsSeries (weatherRows g t) (n.rated.getD 1) 1000 25 true n.gamma) g true r.1 r.2 := by
  unfold pvwattsNorm normalizeWithPvwatts at h
  have hg : (weatherRows g t).map (fun r => (r.1, r.2.1)) = g := by
    unfold weatherRows
    rw [List.map_map]
    exact List.map_id'' (fun _ => rfl) g
  rw [hg] at h
  generalize hP : pvwattsSeries (weatherRows g t) (n.rated.getD 1) 1000 25 true n.gamma = P at h ⊢
  cases hN : normalizeWithExpectedPower energy P g (n.freq (energy.map Prod.fst)) .energy with
  | error e => rw [hN] at h; cases h
  | ok x => rw [hN] at h; cases h; exact ⟨x.1, hN, rfl⟩

theorem stable_inputs (c : Case) (g P : Series) (b : Bool) :
    StableOut c fun u : TA Loc YoYResult σ => Spec.irradiance u c = some g ∧ Spec.modelPower n u c = some P ∧
      u.powerExpected.isNone = b := by
  constructor
  · rintro s d h - -; cases c <;> exact h
  · rintro s d h - -; cases c <;> exact h
  · rintro s f h -; cases c <;> exact h

theorem sensor_normalized (h : sensorPreprocess (degradationEnv n k rest) s = (.ok (), s')) :
    ∃ u N I g P, finish (degradationEnv n k rest) N I .sensor u = (.ok (), s') ∧ (u.params = s.params ∧ u.paramsAgg = s.paramsAgg) ∧
      Spec.irradiance u .sensor = some g ∧ Spec.modelPower n u .sensor = some P ∧
      u.powerExpected = s.powerExpected ∧
      Normalized n s.pvEnergy P g u.powerExpected.isNone N I := by
  unfold sensorPreprocess at h
  replace h := bind_ok.mp h
  obtain ⟨_, _, h0, h⟩ := h
  cases h0
  replace h := bind_ok.mp h
  obtain ⟨poa, s1, h1, h⟩ := h
  obtain ⟨hpoa, e1⟩ := required_ok h1
  subst s1
  replace h := bind_ok.mp h
  obtain ⟨_, v, h2, h⟩ := h
  have hv : SameInputs s v := by
    unfold sensorClearskyPoa at h2
    split_ifs at h2
    · exact (ensureClearskyPoa_same h2).1
    · cases h2; exact SameInputs.refl _
  replace h := bind_ok.mp h
  obtain ⟨r, u, h3, h⟩ := h
  have hpv : v.poa = some poa := hv.poa.trans hpoa
  refine ⟨u, r.1, r.2, poa, ?_⟩
  unfold sensorNormalize at h3
  cases hpe : s.powerExpected with
  | some pe =>
    rw [hpe] at h3
    obtain ⟨h4, rfl⟩ := call_ok h3
    have e : u.powerExpected = some pe := hv.expected.trans hpe
    refine ⟨pe, h, hv.params, hpv, by unfold Spec.modelPower; rw [e], e, ?_⟩
    rw [e]
    exact expectedNorm_normalized h4
  | none =>
    rw [hpe] at h3
    replace h3 := bind_ok.mp h3
    obtain ⟨tc, w, h5, h3⟩ := h3
    obtain ⟨h4, rfl⟩ := call_ok h3
    have hu : u.tcell = some tc ∧ (u.params = s.params ∧ u.paramsAgg = s.paramsAgg) ∧ u.poa = some poa ∧ u.powerExpected = none := by
      unfold sensorTcell at h5
      cases htc : s.tcell with
      | some x =>
        rw [htc] at h5
        cases h5
        exact ⟨hv.tcell.trans htc, hv.params, hpv, hv.expected.trans hpe⟩
      | none =>
        rw [htc] at h5
        cases hta : s.tamb with
        | none => rw [hta] at h5; cases h5
        | some ta =>
          rw [hta] at h5
          replace h5 := bind_ok.mp h5
          obtain ⟨x, _, h6, h5⟩ := h5
          obtain ⟨-, rfl⟩ := call_ok h6
          cases h5
          exact ⟨rfl, hv.params, hpv, hv.expected.trans hpe⟩
    obtain ⟨e1, e2, e3, e4⟩ := hu
    refine ⟨pvwattsSeries (weatherRows poa tc) (n.rated.getD 1) 1000 25 true n.gamma, h, e2, e3, ?_, e4, ?_⟩
    · unfold Spec.modelPower Spec.irradiance Spec.cellTemperature
      rw [e4, e3, e1]
      rfl
    · rw [e4]
      exact pvwattsNorm_normalized h4

theorem clearsky_normalized (h : clearskyPreprocess (degradationEnv n k rest) s = (.ok (), s')) :
    ∃ u N I g P, finish (degradationEnv n k rest) N I .clearsky u = (.ok (), s') ∧ (u.params = s.params ∧ u.paramsAgg = s.paramsAgg) ∧
      Spec.irradiance u .clearsky = some g ∧ Spec.modelPower n u .clearsky = some P ∧
      u.powerExpected = s.powerExpected ∧
      Normalized n s.pvEnergy P g u.powerExpected.isNone N I := by
  unfold clearskyPreprocess at h
  replace h := bind_ok.mp h
  obtain ⟨_, v, h1, h⟩ := h
  obtain ⟨hv, -⟩ := ensureClearskyPoa_same h1
  replace h := bind_ok.mp h
  obtain ⟨_, _, h0, h⟩ := h
  cases h0
  replace h := bind_ok.mp h
  obtain ⟨cs, _, h2, h⟩ := h
  obtain ⟨ecs, rfl⟩ := attr_ok h2
  replace h := bind_ok.mp h
  obtain ⟨g, _, h3, h⟩ := h
  obtain ⟨rfl, rfl⟩ := attr_ok h3
  replace h := bind_ok.mp h
  obtain ⟨tc, w, h4, h⟩ := h
  have hw : w.tcellCs = some (some tc) ∧ w.poaCs = some (some g) ∧ (w.params = s.params ∧ w.paramsAgg = s.paramsAgg) ∧
      w.powerExpected = s.powerExpected := by
    unfold clearskyTcell at h4
    replace h4 := bind_ok.mp h4
    obtain ⟨tc', _, h5, h4⟩ := h4
    obtain ⟨e5, rfl⟩ := attr_ok h5
    cases tc' with
    | some x => cases h4; exact ⟨e5, ecs, hv.params, hv.expected⟩
    | none =>
      replace h4 := bind_ok.mp h4
      obtain ⟨ta, x, h6, h4⟩ := h4
      have hx : x.poaCs = some (some g) ∧ (x.params = s.params ∧ x.paramsAgg = s.paramsAgg) ∧ x.powerExpected = s.powerExpected := by
        unfold clearskyTambient at h6
        replace h6 := bind_ok.mp h6
        obtain ⟨ta', _, h7, h6⟩ := h6
        obtain ⟨-, rfl⟩ := attr_ok h7
        cases ta' with
        | some y => cases h6; exact ⟨ecs, hv.params, hv.expected⟩
        | none =>
          replace h6 := bind_ok.mp h6
          obtain ⟨l, _, h8, h6⟩ := h6
          obtain ⟨-, rfl⟩ := required_ok h8
          replace h6 := bind_ok.mp h6
          obtain ⟨loc, _, h9, h6⟩ := h6
          obtain ⟨-, rfl⟩ := attr_ok h9
          replace h6 := bind_ok.mp h6
          obtain ⟨y, _, h10, h6⟩ := h6
          obtain ⟨-, rfl⟩ := call_ok h10
          cases h6
          exact ⟨ecs, hv.params, hv.expected⟩
      replace h4 := bind_ok.mp h4
      obtain ⟨y, _, h7, h4⟩ := h4
      obtain ⟨-, rfl⟩ := call_ok h7
      cases h4
      exact ⟨rfl, hx.1, hx.2.1, hx.2.2⟩
  obtain ⟨e1, e2, e3, e4⟩ := hw
  replace h := bind_ok.mp h
  obtain ⟨r, u, h5, h⟩ := h
  refine ⟨u, r.1, r.2, g, ?_⟩
  unfold clearskyNormalize at h5
  rw [hv.energy, hv.expected] at h5
  cases hpe : s.powerExpected with
  | some pe =>
    rw [hpe] at h5
    obtain ⟨h6, rfl⟩ := call_ok h5
    have e : u.powerExpected = some pe := e4.trans hpe
    refine ⟨pe, h, e3, by unfold Spec.irradiance; rw [e2]; rfl, by unfold Spec.modelPower; rw [e], e, ?_⟩
    rw [e]
    exact expectedNorm_normalized h6
  | none =>
    rw [hpe] at h5
    obtain ⟨h6, rfl⟩ := call_ok h5
    have e : u.powerExpected = none := e4.trans hpe
    refine ⟨pvwattsSeries (weatherRows g tc) (n.rated.getD 1) 1000 25 true n.gamma, h, e3,
      by unfold Spec.irradiance; rw [e2]; rfl, ?_, e, ?_⟩
    · unfold Spec.modelPower Spec.irradiance Spec.cellTemperature
      rw [e, e2, e1]
      rfl
    · rw [e]
      exact pvwattsNorm_normalized h6

theorem preprocess_normalized (h : preprocess (degradationEnv n k rest) c s = (.ok (), s')) :
    ∃ u N I g P, finish (degradationEnv n k rest) N I c u = (.ok (), s') ∧ (u.params = s.params ∧ u.paramsAgg = s.paramsAgg) ∧
      Spec.irradiance s' c = some g ∧ Spec.modelPower n s' c = some P ∧
      Normalized n s.pvEnergy P g s.powerExpected.isNone N I := by
  have key : ∃ u N I g P, finish (degradationEnv n k rest) N I c u = (.ok (), s') ∧ (u.params = s.params ∧ u.paramsAgg = s.paramsAgg) ∧
      Spec.irradiance u c = some g ∧ Spec.modelPower n u c = some P ∧ u.powerExpected = s.powerExpected ∧
      Normalized n s.pvEnergy P g u.powerExpected.isNone N I := by
    cases c
    · exact sensor_normalized h
    · exact clearsky_normalized h
  obtain ⟨u, N, I, g, P, h1, h2, h3, h4, h5, h6⟩ := key
  have := finish_keeps (env := degradationEnv n k rest) (stable_inputs c g P u.powerExpected.isNone) ⟨h3, h4, rfl⟩ N I
  unfold KeepsAt at this
  rw [h1] at this
  exact ⟨u, N, I, g, P, h1, h2, this.1, this.2.1, h5 ▸ h6⟩

end Verif.Chains
