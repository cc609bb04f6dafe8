import Verif.Lemmas.ChainsAnalysis
import Verif.Props.ChainsState

/-! # Two objects that differ in the measurements only -/

namespace Verif.Chains
variable {Loc ρ σ α β : Type}

/-- the three measured quantities of an object -/
structure Measured where
  power : Option Series
  energy : Series
  expected : Option Series

/-- an object with its measurements replaced -/
def withMeasured (m : Measured) (s : TA Loc ρ σ) : TA Loc ρ σ :=
  { s with pvPower := m.power, pvEnergy := m.energy, powerExpected := m.expected }

/-- two environments that answer the same to two sets of measurements -/
structure SameAnswers (env env' : Env Loc ρ σ) (m m' : Measured) : Prop where
  rest : env' = { env with clipF := env'.clipF, pvwattsNorm := env'.pvwattsNorm, expectedNorm := env'.expectedNorm }
  clip : ∀ kw, m.power.map (env.clipF kw) = m'.power.map (env'.clipF kw)
  norm : ∀ poa tcell, env.pvwattsNorm m.energy poa tcell = env'.pvwattsNorm m'.energy poa tcell
  expected : ∀ poa, m.expected.map (fun pe => env.expectedNorm m.energy pe poa) =
    m'.expected.map fun pe => env'.expectedNorm m'.energy pe poa

/-- the two objects agree but for the measurements -/
def Twin (m m' : Measured) (s s₂ : TA Loc ρ σ) : Prop :=
  s.pvPower = m.power ∧ s.pvEnergy = m.energy ∧ s.powerExpected = m.expected ∧ s₂ = withMeasured m' s

variable {env env' : Env Loc ρ σ} {m m' : Measured} {s s₂ : TA Loc ρ σ}

theorem Twin.update (h : Twin m m' s s₂) {f : TA Loc ρ σ → TA Loc ρ σ}
    (h1 : (f s).pvPower = s.pvPower) (h2 : (f s).pvEnergy = s.pvEnergy) (h3 : (f s).powerExpected = s.powerExpected)
    (h4 : f (withMeasured m' s) = withMeasured m' (f s)) : Twin m m' (f s) (f s₂) := by
  obtain ⟨a, b, c, rfl⟩ := h
  exact ⟨h1.trans a, h2.trans b, h3.trans c, h4⟩

theorem Twin.modifyOut (h : Twin m m' s s₂) (c : Case) (f : Out ρ σ → Out ρ σ) :
    Twin m m' (s.modifyOut c f) (s₂.modifyOut c f) :=
  h.update (f := fun s => s.modifyOut c f) (by cases c <;> rfl) (by cases c <;> rfl) (by cases c <;> rfl)
    (by cases c <;> rfl)

theorem Twin.out (h : Twin m m' s s₂) (c : Case) : s₂.out c = s.out c := by
  obtain ⟨_, _, _, rfl⟩ := h; cases c <;> rfl

theorem twin_modifyOut (h : Twin m m' s s₂) (c : Case) (f : Out ρ σ → Out ρ σ) :
    RelAt (Twin m m') s s₂ (assign fun s => s.modifyOut c f) (assign fun s => s.modifyOut c f) :=
  ⟨rfl, h.modifyOut c f⟩

theorem twin_adHoc {get : TA Loc ρ σ → FilterDict FVal} {put : FilterDict FVal → TA Loc ρ σ → TA Loc ρ σ}
    (h : Twin m m' s s₂) (hg : get s₂ = get s) (hp : ∀ d, Twin m m' (put d s) (put d s₂)) (idx : List Int) :
    RelAt (Twin m m') s s₂ (adHoc get put idx) (adHoc get put idx) := by
  unfold adHoc
  refine relAt_self ?_
  rw [hg]
  cases (get s).items.get? "ad_hoc_filter" with
  | none => exact relAt_pure h _
  | some v =>
    cases v with
    | none => exact relAt_pure h _
    | kwargs k => exact relAt_raise h _
    | mask mm => exact relAt_bind ⟨rfl, hp _⟩ fun _ u u₂ _ _ hu => relAt_pure hu _

/-- the clipping component -/
theorem twin_clip (H : SameAnswers env env' m m') (d : FilterDict FVal) (name : String) (s s₂ : TA Loc ρ σ) :
    (component d name (required m.power) env.clipF s).1 = (component d name (required m'.power) env'.clipF s₂).1 := by
  unfold component
  cases d.items.get? name with
  | none => rfl
  | some v =>
    have hk := H.clip
    cases hm : m.power with
    | none =>
      cases hm' : m'.power with
      | none => rfl
      | some p' => have := hk ""; rw [hm, hm'] at this; cases this
    | some p =>
      cases hm' : m'.power with
      | none => have := hk ""; rw [hm, hm'] at this; cases this
      | some p' =>
        cases v with
        | none => rfl
        | mask _ => rfl
        | kwargs kw =>
          have e := hk kw
          rw [hm, hm'] at e
          have e' : env.clipF kw p = env'.clipF kw p' := Option.some.inj e
          show ((call (env.clipF kw p) >>= fun m => pure [(name, m)] : M Loc ρ σ _) s).1 =
            ((call (env'.clipF kw p') >>= fun m => pure [(name, m)] : M Loc ρ σ _) s₂).1
          rw [e']
          cases env'.clipF kw p' <;> rfl

theorem twin_clearskyComponent (H : SameAnswers env env' m m') (h : Twin m m' s s₂) (name : String) :
    (clearskyComponent env name s).1 = (clearskyComponent env' name s₂).1 := by
  obtain ⟨_, _, _, rfl⟩ := h
  have e : env'.clearskyF = env.clearskyF := by rw [H.rest]
  rw [show clearskyComponent env' name = clearskyComponent env name by unfold clearskyComponent; rw [e]]
  exact clearskyComponent_rel _ rfl rfl (FillEq.refl _)

theorem twin_filter (H : SameAnswers env env' m m') (h : Twin m m' s s₂) (energy : Series) (c : Case) :
    RelAt (Twin m m') s s₂ (filter env energy c) (filter env' energy c) := by
  have h0 := h
  obtain ⟨hp, he, hx, hs⟩ := h
  have e1 : env'.normalizedF = env.normalizedF := by rw [H.rest]
  have e2 : env'.poaF = env.poaF := by rw [H.rest]
  have e3 : env'.tcellF = env.tcellF := by rw [H.rest]
  have e4 : env'.hourAngleF = env.hourAngleF := by rw [H.rest]
  unfold filter
  refine relAt_self ?_
  rw [e1, e2, e3, e4]
  have q1 : s₂.params = s.params := by rw [hs]; rfl
  have q2 : casePoa s₂ c = casePoa s c := by rw [hs]; cases c <;> rfl
  have q3 : caseTcell s₂ c = caseTcell s c := by rw [hs]; cases c <;> rfl
  have q4 : hourAngleLocation s₂ = hourAngleLocation s := by rw [hs]; rfl
  have q5 : s₂.pvPower = m'.power := by rw [hs]; rfl
  rw [q1, q2, q3, q4, q5, hp]
  refine relAt_bind_ro h0 (readOnly_casePoa _ _) (readOnly_casePoa _ _) ?_ fun poa => ?_
  · cases c
    · rfl
    · exact attr_rel _ _ _
  refine relAt_bind_ro h0 (readOnly_caseTcell _ _) (readOnly_caseTcell _ _) ?_ fun tcell => ?_
  · cases c
    · rfl
    · exact attr_rel _ _ _
  refine relAt_bind_ro h0 (readOnly_component _ _ (readOnly_pure _) _) (readOnly_component _ _ (readOnly_pure _) _)
    (component_rel (s := s) (s₂ := s₂) (.refl _) _ (readOnly_pure _) (readOnly_pure _) rfl _) fun c1 => ?_
  refine relAt_bind_ro h0 (readOnly_component _ _ (readOnly_required _) _) (readOnly_component _ _ (readOnly_required _) _)
    (component_rel (.refl _) _ (readOnly_required _) (readOnly_required _) (required_rel _ _ _) _) fun c2 => ?_
  refine relAt_bind_ro h0 (readOnly_component _ _ (readOnly_required _) _) (readOnly_component _ _ (readOnly_required _) _)
    (component_rel (.refl _) _ (readOnly_required _) (readOnly_required _) (required_rel _ _ _) _) fun c3 => ?_
  refine relAt_bind_ro h0 (readOnly_component _ _ (readOnly_required _) _) (readOnly_component _ _ (readOnly_required _) _)
    (twin_clip H _ _ _ _) fun c4 => ?_
  refine relAt_bind_ro h0 (readOnly_component _ _ (readOnly_hourAngleLocation _) _)
    (readOnly_component _ _ (readOnly_hourAngleLocation _) _)
    (component_rel (.refl _) _ (readOnly_hourAngleLocation _) (readOnly_hourAngleLocation _) ?_ _) fun c5 => ?_
  · unfold hourAngleLocation
    exact (relAt_bind_ro (R := fun _ _ => True) trivial (readOnly_required _) (readOnly_required _)
      (required_rel _ _ _) fun l => relAt_attr trivial _).1
  refine relAt_bind_ro h0 (readOnly_caseClearsky _ _) (readOnly_caseClearsky _ _) ?_ fun c6 => ?_
  · cases c
    · rfl
    · exact twin_clearskyComponent H h0 _
  refine relAt_bind_ro h0 (readOnly_sensorClearsky _ _) (readOnly_sensorClearsky _ _) ?_ fun c7 => ?_
  · unfold sensorClearsky
    split_ifs
    · exact twin_clearskyComponent H h0 _
    · rfl
  exact relAt_bind (twin_adHoc h0 q1 (fun d => h0.update (f := fun s => { s with params := d }) rfl rfl rfl rfl) _)
    fun a u u₂ _ _ hu => twin_modifyOut hu _ _

theorem twin_aggregatedFilter (H : SameAnswers env env' m m') (h : Twin m m' s s₂) (agg : Series) (c : Case) :
    RelAt (Twin m m') s s₂ (aggregatedFilter env agg c) (aggregatedFilter env' agg c) := by
  have e1 : env'.twoWayF = env.twoWayF := by rw [H.rest]
  have e2 : env'.insolationF = env.insolationF := by rw [H.rest]
  have e3 : env'.hampelF = env.hampelF := by rw [H.rest]
  have e4 : env'.tukeyF = env.tukeyF := by rw [H.rest]
  unfold aggregatedFilter
  refine relAt_self ?_
  have q1 : s₂.paramsAgg = s.paramsAgg := by rw [h.2.2.2]; rfl
  rw [e1, e2, e3, e4, q1, h.out]
  refine relAt_bind_ro h (readOnly_attr _) (readOnly_attr _) (attr_rel _ _ _) fun insol => ?_
  refine relAt_bind_ro h (readOnly_component _ _ (readOnly_pure _) _) (readOnly_component _ _ (readOnly_pure _) _)
    (component_rel (s := s) (s₂ := s₂) (.refl _) _ (readOnly_pure _) (readOnly_pure _) rfl _) fun c1 => ?_
  refine relAt_bind_ro h (readOnly_component _ _ (readOnly_pure _) _) (readOnly_component _ _ (readOnly_pure _) _)
    (component_rel (s := s) (s₂ := s₂) (.refl _) _ (readOnly_pure _) (readOnly_pure _) rfl _) fun c2 => ?_
  refine relAt_bind_ro h (readOnly_component _ _ (readOnly_pure _) _) (readOnly_component _ _ (readOnly_pure _) _)
    (component_rel (s := s) (s₂ := s₂) (.refl _) _ (readOnly_pure _) (readOnly_pure _) rfl _) fun c3 => ?_
  refine relAt_bind_ro h (readOnly_component _ _ (readOnly_pure _) _) (readOnly_component _ _ (readOnly_pure _) _)
    (component_rel (s := s) (s₂ := s₂) (.refl _) _ (readOnly_pure _) (readOnly_pure _) rfl _) fun c4 => ?_
  exact relAt_bind (twin_adHoc h q1 (fun d => h.update (f := fun s => { s with paramsAgg := d }) rfl rfl rfl rfl) _)
    fun a u u₂ _ _ hu => twin_modifyOut hu _ _

theorem twin_finish (H : SameAnswers env env' m m') (h : Twin m m' s s₂) (energy insol : Series) (c : Case) :
    RelAt (Twin m m') s s₂ (finish env energy insol c) (finish env' energy insol c) := by
  have e1 : env'.aggregate = env.aggregate := by rw [H.rest]
  have e2 : env'.asfreq = env.asfreq := by rw [H.rest]
  unfold finish
  rw [e1, e2]
  refine relAt_bind (twin_filter H h _ _) fun _ u u₂ _ _ hu => ?_
  refine relAt_self ?_
  rw [hu.out]
  refine relAt_bind_ro hu (readOnly_attr _) (readOnly_attr _) (attr_rel _ _ _) fun mask => ?_
  refine relAt_bind_ro hu (readOnly_call _) (readOnly_call _) rfl fun xe => ?_
  refine relAt_bind_ro hu (readOnly_call _) (readOnly_call _) rfl fun xi => ?_
  refine relAt_bind_ro hu (readOnly_call _) (readOnly_call _) rfl fun r => ?_
  refine relAt_bind (twin_modifyOut hu _ _) fun _ v v₂ _ _ hv => ?_
  refine relAt_bind (twin_aggregatedFilter H hv _ _) fun _ w w₂ _ _ hw => ?_
  refine relAt_self ?_
  rw [hw.out]
  refine relAt_bind_ro hw (readOnly_attr _) (readOnly_attr _) (attr_rel _ _ _) fun maskAgg => ?_
  refine relAt_bind_ro hw (readOnly_call _) (readOnly_call _) rfl fun p => ?_
  refine relAt_bind (twin_modifyOut hw _ _) fun _ x x₂ _ _ hx => ?_
  refine relAt_bind_ro hx (readOnly_call _) (readOnly_call _) rfl fun q => ?_
  exact twin_modifyOut hx _ _

theorem twin_ensureClearskyPoa (H : SameAnswers env env' m m') (h : Twin m m' s s₂) :
    RelAt (Twin m m') s s₂ (ensureClearskyPoa env) (ensureClearskyPoa env') := by
  have e1 : env'.clearskyPoa = env.clearskyPoa := by rw [H.rest]
  unfold ensureClearskyPoa calcClearskyPoa
  refine relAt_self ?_
  have q1 : s₂.poaCs = s.poaCs := by rw [h.2.2.2]; rfl
  have q2 : s₂.poa = s.poa := by rw [h.2.2.2]; rfl
  have q3 : s₂.location = s.location := by rw [h.2.2.2]; rfl
  have q4 : s₂.tilt = s.tilt := by rw [h.2.2.2]; rfl
  rw [e1, q1, q2, q3, q4]
  refine relAt_bind_ro h (readOnly_attr _) (readOnly_attr _) (attr_rel _ _ _) fun cs => ?_
  split_ifs
  · exact relAt_pure h _
  · refine relAt_bind_ro h (readOnly_attr _) (readOnly_attr _) (attr_rel _ _ _) fun poa => ?_
    refine relAt_bind_ro h (readOnly_required _) (readOnly_required _) (required_rel _ _ _) fun l => ?_
    refine relAt_bind_ro h (readOnly_attr _) (readOnly_attr _) (attr_rel _ _ _) fun loc => ?_
    refine relAt_bind_ro h (readOnly_call _) (readOnly_call _) rfl fun v => ?_
    exact ⟨rfl, h.update (f := fun s => { s with poaCs := some (some v) }) rfl rfl rfl rfl⟩
  · refine relAt_bind_ro h (readOnly_attr _) (readOnly_attr _) (attr_rel _ _ _) fun poa => ?_
    refine relAt_bind_ro h (readOnly_required _) (readOnly_required _) (required_rel _ _ _) fun l => ?_
    exact relAt_raise h _

/-- the answers of the normalizations, whichever is used -/
theorem twin_expected (H : SameAnswers env env' m m') (poa : Series) :
    (m.expected = none ∧ m'.expected = none) ∨
      ∃ pe pe', m.expected = some pe ∧ m'.expected = some pe' ∧
        env.expectedNorm m.energy pe poa = env'.expectedNorm m'.energy pe' poa := by
  have := H.expected poa
  cases h : m.expected with
  | none =>
    cases h' : m'.expected with
    | none => exact .inl ⟨rfl, rfl⟩
    | some pe' => rw [h, h'] at this; cases this
  | some pe =>
    cases h' : m'.expected with
    | none => rw [h, h'] at this; cases this
    | some pe' => rw [h, h'] at this; exact .inr ⟨pe, pe', rfl, rfl, Option.some.inj this⟩

theorem twin_sensorNormalize (H : SameAnswers env env' m m') {u u₂ : TA Loc ρ σ} (h0 : Twin m m' s s₂)
    (h : Twin m m' u u₂) (poa : Series) :
    RelAt (Twin m m') u u₂ (sensorNormalize env s poa) (sensorNormalize env' s₂ poa) := by
  have e1 : env'.cellTemp = env.cellTemp := by rw [H.rest]
  obtain ⟨hp, he, hx, hs⟩ := h0
  have q1 : s₂.powerExpected = m'.expected := by rw [hs]; rfl
  have q2 : s₂.pvEnergy = m'.energy := by rw [hs]; rfl
  have q3 : s₂.tcell = s.tcell := by rw [hs]; rfl
  have q4 : s₂.tamb = s.tamb := by rw [hs]; rfl
  unfold sensorNormalize sensorTcell
  rw [q1, q2, q3, q4, hx, he, e1]
  rcases twin_expected H poa with ⟨a, b⟩ | ⟨pe, pe', a, b, e⟩
  · rw [a, b]
    refine relAt_bind ?_ fun tc v v₂ _ _ hv => by rw [H.norm]; exact relAt_call hv _
    cases s.tcell with
    | some tc => exact relAt_pure h _
    | none =>
      cases s.tamb with
      | none => exact relAt_raise h _
      | some ta =>
        refine relAt_bind_ro h (readOnly_call _) (readOnly_call _) rfl fun v => ?_
        exact relAt_bind ⟨rfl, h.update (f := fun s => { s with tcell := some v }) rfl rfl rfl rfl⟩
          fun _ w w₂ _ _ hw => relAt_pure hw _
  · rw [a, b]
    show RelAt _ u u₂ (call _) (call _)
    rw [e]
    exact relAt_call h _

theorem twin_sensorPreprocess (H : SameAnswers env env' m m') (h : Twin m m' s s₂) :
    RelAt (Twin m m') s s₂ (sensorPreprocess env) (sensorPreprocess env') := by
  unfold sensorPreprocess
  refine relAt_self ?_
  have q1 : s₂.poa = s.poa := by rw [h.2.2.2]; rfl
  have q2 : s₂.params = s.params := by rw [h.2.2.2]; rfl
  rw [q1]
  refine relAt_bind_ro h (readOnly_required _) (readOnly_required _) (required_rel _ _ _) fun poa => ?_
  refine relAt_bind ?_ fun _ u u₂ _ _ hu => ?_
  · unfold sensorClearskyPoa
    rw [q2]
    split_ifs
    · exact twin_ensureClearskyPoa H h
    · exact relAt_pure h _
  refine relAt_bind (twin_sensorNormalize H h hu poa) fun r v v₂ _ _ hv => twin_finish H hv _ _ _

theorem twin_clearskyTcell (H : SameAnswers env env' m m') (h : Twin m m' s s₂) (poaCs : Series) :
    RelAt (Twin m m') s s₂ (clearskyTcell env s poaCs) (clearskyTcell env' s₂ poaCs) := by
  have e1 : env'.cellTemp = env.cellTemp := by rw [H.rest]
  have e2 : env'.clearskyTamb = env.clearskyTamb := by rw [H.rest]
  have q1 : s₂.tcellCs = s.tcellCs := by rw [h.2.2.2]; rfl
  have q2 : s₂.tambCs = s.tambCs := by rw [h.2.2.2]; rfl
  have q3 : s₂.location = s.location := by rw [h.2.2.2]; rfl
  unfold clearskyTcell clearskyTambient
  rw [q1, q2, q3, e1, e2]
  refine relAt_bind_ro h (readOnly_attr _) (readOnly_attr _) (attr_rel _ _ _) fun tc => ?_
  cases tc with
  | some v => exact relAt_pure h _
  | none =>
    refine relAt_bind ?_ fun tamb u u₂ _ _ hu => ?_
    · refine relAt_bind_ro h (readOnly_attr _) (readOnly_attr _) (attr_rel _ _ _) fun ta => ?_
      cases ta with
      | some v => exact relAt_pure h _
      | none =>
        refine relAt_bind_ro h (readOnly_required _) (readOnly_required _) (required_rel _ _ _) fun l => ?_
        refine relAt_bind_ro h (readOnly_attr _) (readOnly_attr _) (attr_rel _ _ _) fun loc => ?_
        refine relAt_bind_ro h (readOnly_call _) (readOnly_call _) rfl fun v => ?_
        exact relAt_bind ⟨rfl, h.update (f := fun s => { s with tambCs := some (some v) }) rfl rfl rfl rfl⟩
          fun _ w w₂ _ _ hw => relAt_pure hw _
    · refine relAt_bind_ro hu (readOnly_call _) (readOnly_call _) rfl fun v => ?_
      exact relAt_bind ⟨rfl, hu.update (f := fun s => { s with tcellCs := some (some v) }) rfl rfl rfl rfl⟩
        fun _ w w₂ _ _ hw => relAt_pure hw _

theorem twin_clearskyPreprocess (H : SameAnswers env env' m m') (h : Twin m m' s s₂) :
    RelAt (Twin m m') s s₂ (clearskyPreprocess env) (clearskyPreprocess env') := by
  unfold clearskyPreprocess
  refine relAt_bind (twin_ensureClearskyPoa H h) fun _ u u₂ _ _ hu => ?_
  refine relAt_self ?_
  have q1 : u₂.poaCs = u.poaCs := by rw [hu.2.2.2]; rfl
  rw [q1]
  refine relAt_bind_ro hu (readOnly_attr _) (readOnly_attr _) (attr_rel _ _ _) fun cs => ?_
  refine relAt_bind_ro hu (readOnly_attr _) (readOnly_attr _) (attr_rel _ _ _) fun poaCs => ?_
  refine relAt_bind (twin_clearskyTcell H hu poaCs) fun tcell v v₂ _ _ hv => ?_
  have q2 : u₂.powerExpected = m'.expected := by rw [hu.2.2.2]; rfl
  have q3 : u₂.pvEnergy = m'.energy := by rw [hu.2.2.2]; rfl
  unfold clearskyNormalize
  rw [q2, q3, hu.2.2.1, hu.2.1]
  rcases twin_expected H poaCs with ⟨a, b⟩ | ⟨pe, pe', a, b, e⟩
  · rw [a, b]
    refine relAt_bind_ro hv (readOnly_call _) (readOnly_call _) ?_ fun r => twin_finish H hv _ _ _
    rw [H.norm]; rfl
  · rw [a, b]
    refine relAt_bind_ro hv (readOnly_call _) (readOnly_call _) ?_ fun r => twin_finish H hv _ _ _
    exact e

theorem twin_analysis (H : SameAnswers env env' m m') (h : Twin m m' s s₂) (c : Case) (analyses : List String)
    (yoyKw srrKw : String) :
    RelAt (Twin m m') s s₂ (analysis env c analyses yoyKw srrKw) (analysis env' c analyses yoyKw srrKw) := by
  have e1 : env'.yoy = env.yoy := by rw [H.rest]
  have e2 : env'.srr = env.srr := by rw [H.rest]
  unfold analysis yoyDegradation srrSoiling
  rw [e1, e2]
  refine relAt_bind (m := preprocess env c) (m' := preprocess env' c) ?_ fun _ u u₂ _ _ hu => ?_
  · cases c
    · exact twin_sensorPreprocess H h
    · exact twin_clearskyPreprocess H h
  refine relAt_self ?_
  have q1 : u₂.aggDaily = u.aggDaily := by rw [hu.2.2.2]; rfl
  rw [hu.out, q1]
  refine relAt_bind_ro hu (readOnly_attr _) (readOnly_attr _) (attr_rel _ _ _) fun perf => ?_
  refine relAt_bind_ro hu (readOnly_attr _) (readOnly_attr _) (attr_rel _ _ _) fun insol => ?_
  refine relAt_bind_ro hu (readOnly_requested _ _ _) (readOnly_requested _ _ _) (requested_rel _ _ _ _ _) fun y => ?_
  refine relAt_bind_ro hu (readOnly_requested _ _ _) (readOnly_requested _ _ _) (requested_rel _ _ _ _ _) fun z => ?_
  exact twin_modifyOut hu _ _

theorem twin_call (H : SameAnswers env env' m m') (h : Twin m m' s s₂) (k : Call Loc) :
    RelAt (Twin m m') s s₂ (k.run env) (k.run env') := by
  have e1 : env'.interpolate = env.interpolate := by rw [H.rest]
  have q1 : s₂.params = s.params := by rw [h.2.2.2]; rfl
  have q2 : s₂.paramsAgg = s.paramsAgg := by rw [h.2.2.2]; rfl
  cases k with
  | analysis c a y z => exact twin_analysis H h c a y z
  | setClearsky loc p tc ta =>
    show RelAt _ _ _ (setClearsky env loc p tc ta) (setClearsky env' loc p tc ta)
    unfold setClearsky interpOpt
    rw [e1]
    refine relAt_bind_ro h (readOnly_call _) (readOnly_call _) rfl fun p => ?_
    refine relAt_bind_ro h (readOnly_call _) (readOnly_call _) rfl fun tc => ?_
    refine relAt_bind_ro h (readOnly_call _) (readOnly_call _) rfl fun ta => ?_
    exact ⟨rfl, h.update (f := fun s => { s with location := some loc, tilt := true, poaCs := some p, tcellCs := some tc, tambCs := some ta }) rfl rfl rfl rfl⟩
  | setFilterParams d =>
    show RelAt _ _ _ (setFilterParams d) (setFilterParams d)
    unfold setFilterParams
    refine relAt_self ?_
    rw [q1]
    refine relAt_bind_ro h (readOnly_required _) (readOnly_required _) (required_rel _ _ _) fun pairs => ?_
    refine relAt_bind_ro h (readOnly_call _) (readOnly_call _) rfl fun new => ?_
    exact ⟨rfl, h.update (f := fun s => { s with params := new }) rfl rfl rfl rfl⟩
  | setFilterParamsAggregated d =>
    show RelAt _ _ _ (setFilterParamsAggregated d) (setFilterParamsAggregated d)
    unfold setFilterParamsAggregated
    refine relAt_self ?_
    rw [q2]
    refine relAt_bind_ro h (readOnly_required _) (readOnly_required _) (required_rel _ _ _) fun pairs => ?_
    refine relAt_bind_ro h (readOnly_call _) (readOnly_call _) rfl fun new => ?_
    exact ⟨rfl, h.update (f := fun s => { s with paramsAgg := new }) rfl rfl rfl rfl⟩
  | editFilterParams op =>
    refine ⟨?_, ?_⟩
    · show (FilterDict.step s.params op).2 = (FilterDict.step s₂.params op).2
      rw [q1]
    · show Twin m m' { s with params := (FilterDict.step s.params op).1 }
        { s₂ with params := (FilterDict.step s₂.params op).1 }
      rw [q1]
      exact h.update (f := fun s' => { s' with params := (FilterDict.step s.params op).1 }) rfl rfl rfl rfl
  | editFilterParamsAggregated op =>
    refine ⟨?_, ?_⟩
    · show (FilterDict.step s.paramsAgg op).2 = (FilterDict.step s₂.paramsAgg op).2
      rw [q2]
    · show Twin m m' { s with paramsAgg := (FilterDict.step s.paramsAgg op).1 }
        { s₂ with paramsAgg := (FilterDict.step s₂.paramsAgg op).1 }
      rw [q2]
      exact h.update (f := fun s' => { s' with paramsAgg := (FilterDict.step s.paramsAgg op).1 }) rfl rfl rfl rfl

end Verif.Chains
