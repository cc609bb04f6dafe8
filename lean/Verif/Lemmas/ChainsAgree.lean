import Verif.Lemmas.ChainsSim

/-! # Analyses read only part of the object -/

namespace Verif.Chains
variable {Loc ρ σ α β : Type}

/-- the clear-sky irradiance of `s₂` is the one `s` would compute -/
def ComputedPoa (env : Env Loc ρ σ) (s s₂ : TA Loc ρ σ) : Prop :=
  s.poaCs = some none ∧ ∃ p loc v, s.poa = some p ∧ s.location = some (some loc) ∧ s.tilt = true ∧
    env.clearskyPoa loc p = .ok v ∧ s₂.poaCs = some (some v)

/-- two objects indistinguishable for the analysis of case `c` -/
structure Agree (env : Env Loc ρ σ) (c : Case) (s s₂ : TA Loc ρ σ) : Prop where
  power : s.pvPower = s₂.pvPower
  energy : s.pvEnergy = s₂.pvEnergy
  poa : s.poa = s₂.poa
  expected : s.powerExpected = s₂.powerExpected
  daily : s.aggDaily = s₂.aggDaily
  params : FillEq s.params s₂.params
  paramsAgg : FillEq s.paramsAgg s₂.paramsAgg
  location : s.location = s₂.location
  tilt : s.tilt = s₂.tilt
  poaCs : s.poaCs = s₂.poaCs ∨ ComputedPoa env s s₂
  temps : c = .sensor → s.tcell = s₂.tcell ∧ s.tamb = s₂.tamb
  tempsCs : c = .clearsky → s.tcellCs = s₂.tcellCs ∧ s.tambCs = s₂.tambCs
  out : s.out c = s₂.out c

/-- `Agree`, and the clear-sky irradiance agrees where it is read -/
def AgreeS (env : Env Loc ρ σ) (c : Case) (s s₂ : TA Loc ρ σ) : Prop :=
  Agree env c s s₂ ∧ (c = .clearsky ∨ s.params.items.has "sensor_clearsky_filter" = true → s.poaCs = s₂.poaCs)

theorem Agree.refl (env : Env Loc ρ σ) (c : Case) (s : TA Loc ρ σ) : Agree env c s s :=
  ⟨rfl, rfl, rfl, rfl, rfl, .refl _, .refl _, rfl, rfl, .inl rfl, fun _ => ⟨rfl, rfl⟩, fun _ => ⟨rfl, rfl⟩, rfl⟩

variable {env : Env Loc ρ σ} {c : Case} {s s₂ : TA Loc ρ σ}

@[simp] theorem out_modifyOut (s : TA Loc ρ σ) (c : Case) (f : Out ρ σ → Out ρ σ) :
    (s.modifyOut c f).out c = f (s.out c) := by cases c <;> rfl

theorem Agree.modifyOut (h : Agree env c s s₂) (f : Out ρ σ → Out ρ σ) :
    Agree env c (s.modifyOut c f) (s₂.modifyOut c f) := by
  have ho : (s.modifyOut c f).out c = (s₂.modifyOut c f).out c := by
    rw [out_modifyOut, out_modifyOut, h.out]
  obtain ⟨h1, h2, h3, h4, h5, h6, h7, h8, h9, h10, h11, h12, h13⟩ := h
  cases c <;> exact ⟨h1, h2, h3, h4, h5, h6, h7, h8, h9, h10, h11, h12, ho⟩

theorem AgreeS.modifyOut (h : AgreeS env c s s₂) (f : Out ρ σ → Out ρ σ) :
    AgreeS env c (s.modifyOut c f) (s₂.modifyOut c f) := by
  refine ⟨h.1.modifyOut f, ?_⟩
  have := h.2
  cases c <;> exact this

theorem relAt_modifyOut (h : AgreeS env c s s₂) (f : Out ρ σ → Out ρ σ) :
    RelAt (AgreeS env c) s s₂ (assign fun s => s.modifyOut c f) (assign fun s => s.modifyOut c f) :=
  ⟨rfl, h.modifyOut f⟩

/-- writing the filled ad hoc filter back on both sides -/
theorem AgreeS.params (h : AgreeS env c s s₂) {d d₂ : FilterDict FVal} (h1 : FillEq s.params d)
    (h2 : FillEq s₂.params d₂) : AgreeS env c { s with params := d } { s₂ with params := d₂ } := by
  obtain ⟨⟨a1, a2, a3, a4, a5, a6, a7, a8, a9, a10, a11, a12, a13⟩, hp⟩ := h
  refine ⟨⟨a1, a2, a3, a4, a5, (h1.symm.trans a6).trans h2, a7, a8, a9, a10, a11, a12, ?_⟩, ?_⟩
  · cases c <;> exact a13
  · rw [show ({ s with params := d } : TA Loc ρ σ).params.items.has "sensor_clearsky_filter" = _ from (h1.has _).symm]
    exact hp

theorem AgreeS.paramsAgg (h : AgreeS env c s s₂) {d d₂ : FilterDict FVal} (h1 : FillEq s.paramsAgg d)
    (h2 : FillEq s₂.paramsAgg d₂) : AgreeS env c { s with paramsAgg := d } { s₂ with paramsAgg := d₂ } := by
  obtain ⟨⟨a1, a2, a3, a4, a5, a6, a7, a8, a9, a10, a11, a12, a13⟩, hp⟩ := h
  exact ⟨⟨a1, a2, a3, a4, a5, a6, (h1.symm.trans a7).trans h2, a8, a9, a10, a11, a12, by cases c <;> exact a13⟩, hp⟩

theorem adHoc_rel {R : TA Loc ρ σ → TA Loc ρ σ → Prop} {get : TA Loc ρ σ → FilterDict FVal}
    {put : FilterDict FVal → TA Loc ρ σ → TA Loc ρ σ} (hR : R s s₂) (hd : FillEq (get s) (get s₂))
    (hput : ∀ d d₂, FillEq (get s) d → FillEq (get s₂) d₂ → R (put d s) (put d₂ s₂)) (idx : List Int) :
    RelAt R s s₂ (adHoc get put idx) (adHoc get put idx) := by
  unfold adHoc
  refine relAt_self ?_
  have hk := hd "ad_hoc_filter"
  cases hg : (get s).items.get? "ad_hoc_filter" with
  | none =>
    cases hg' : (get s₂).items.get? "ad_hoc_filter" with
    | none => exact relAt_pure hR _
    | some w => rw [hg, hg'] at hk; cases hk
  | some v =>
    cases hg' : (get s₂).items.get? "ad_hoc_filter" with
    | none => rw [hg, hg'] at hk; cases hk
    | some w =>
      rw [hg, hg', Option.map_some, Option.map_some, Option.some.injEq] at hk
      cases v with
      | kwargs k =>
        cases w with
        | kwargs k' => exact relAt_raise hR _
        | none => cases hk
        | mask m => cases hk
      | none =>
        cases w with
        | kwargs k' => cases hk
        | none => exact relAt_pure hR _
        | mask m => cases hk
      | mask m =>
        cases w with
        | kwargs k' => cases hk
        | none => cases hk
        | mask m' =>
          simp only [normV, FVal.mask.injEq] at hk
          show RelAt R s s₂ (_ >>= _) (_ >>= _)
          refine relAt_bind ⟨rfl, hput _ _ ?_ ?_⟩ fun a u u₂ h1 h2 hu => ?_
          · exact FillEq.set hg (by simp [normV, fillAdHoc_idem])
          · exact FillEq.set hg' (by simp [normV, fillAdHoc_idem])
          · rw [hk]; exact relAt_pure hu _

theorem clearskyComponent_rel (name : String) (hpoa : s.poa = s₂.poa) (hcs : s.poaCs = s₂.poaCs)
    (hd : FillEq s.params s₂.params) :
    (clearskyComponent env name s).1 = (clearskyComponent env name s₂).1 := by
  have H : RelAt (fun _ _ => True) s s₂ (clearskyComponent env name) (clearskyComponent env name) := by
    unfold clearskyComponent
    refine relAt_self ?_
    rw [hpoa, hcs]
    refine relAt_bind_ro trivial (readOnly_required _) (readOnly_required _) (relAt_required (R := fun _ _ => True) trivial _).1 fun p => ?_
    refine relAt_bind_ro trivial (readOnly_attr _) (readOnly_attr _) (relAt_attr (R := fun _ _ => True) trivial _).1 fun cs => ?_
    refine relAt_bind_ro trivial (readOnly_required _) (readOnly_required _) (relAt_required (R := fun _ _ => True) trivial _).1 fun p' => ?_
    have hk := hd name
    cases hg : s.params.items.get? name with
    | none =>
      cases hg' : s₂.params.items.get? name with
      | none => exact relAt_raise trivial _
      | some w => rw [hg, hg'] at hk; cases hk
    | some v =>
      cases hg' : s₂.params.items.get? name with
      | none => rw [hg, hg'] at hk; cases hk
      | some w =>
        rw [hg, hg', Option.map_some, Option.map_some, Option.some.injEq] at hk
        exact relAt_bind_ro trivial (readOnly_kwargsOf _) (readOnly_kwargsOf _) (kwargsOf_norm hk s s₂) fun kw =>
          relAt_bind_ro trivial (readOnly_call _) (readOnly_call _) rfl fun m => relAt_pure trivial _
  exact H.1

theorem readOnly_casePoa (s : TA Loc ρ σ) (c : Case) : ReadOnly (casePoa s c) := by
  cases c
  · exact readOnly_pure _
  · exact readOnly_attr _

theorem readOnly_caseTcell (s : TA Loc ρ σ) (c : Case) : ReadOnly (caseTcell s c) := by
  cases c
  · exact readOnly_pure _
  · exact readOnly_attr _

theorem readOnly_hourAngleLocation (s : TA Loc ρ σ) : ReadOnly (hourAngleLocation s) :=
  readOnly_bind (readOnly_required _) fun _ => readOnly_attr _

theorem readOnly_caseClearsky (env : Env Loc ρ σ) (c : Case) : ReadOnly (caseClearsky env c) := by
  cases c
  · exact readOnly_pure _
  · exact readOnly_clearskyComponent _ _

theorem readOnly_sensorClearsky (env : Env Loc ρ σ) (d : FilterDict FVal) : ReadOnly (sensorClearsky env d) := by
  unfold sensorClearsky
  split_ifs
  · exact readOnly_clearskyComponent _ _
  · exact readOnly_pure _

theorem ro_rel {m : M Loc ρ σ α} (h : ∀ s s₂, (m s).1 = (m s₂).1) (s s₂ : TA Loc ρ σ) : (m s).1 = (m s₂).1 := h s s₂

theorem required_rel (o : Option α) (s s₂ : TA Loc ρ σ) :
    ((required o : M Loc ρ σ α) s).1 = ((required o : M Loc ρ σ α) s₂).1 := by cases o <;> rfl
theorem attr_rel (o : Option α) (s s₂ : TA Loc ρ σ) :
    ((attr o : M Loc ρ σ α) s).1 = ((attr o : M Loc ρ σ α) s₂).1 := by cases o <;> rfl

theorem hourAngleLocation_rel (h : s.location = s₂.location) :
    (hourAngleLocation s s).1 = (hourAngleLocation s₂ s₂).1 := by
  unfold hourAngleLocation
  rw [h]
  exact (relAt_bind_ro (R := fun _ _ => True) trivial (readOnly_required _) (readOnly_required _)
    (required_rel _ _ _) fun l => relAt_attr trivial _).1

theorem filter_rel (energy : Series) (h : AgreeS env c s s₂) :
    RelAt (AgreeS env c) s s₂ (filter env energy c) (filter env energy c) := by
  have hd := h.1.params
  unfold filter
  refine relAt_self ?_
  refine relAt_bind_ro h (readOnly_casePoa _ _) (readOnly_casePoa _ _) ?_ fun poa => ?_
  · cases c with
    | sensor => show Except.ok s.poa = Except.ok s₂.poa; rw [h.1.poa]
    | clearsky => show ((attr s.poaCs : M Loc ρ σ _) s).1 = _; rw [h.2 (.inl rfl)]; exact attr_rel _ _ _
  refine relAt_bind_ro h (readOnly_caseTcell _ _) (readOnly_caseTcell _ _) ?_ fun tcell => ?_
  · cases c with
    | sensor => show Except.ok s.tcell = Except.ok s₂.tcell; rw [(h.1.temps rfl).1]
    | clearsky => show ((attr s.tcellCs : M Loc ρ σ _) s).1 = _; rw [(h.1.tempsCs rfl).1]; exact attr_rel _ _ _
  refine relAt_bind_ro h (readOnly_component _ _ (readOnly_pure _) _) (readOnly_component _ _ (readOnly_pure _) _)
    (component_rel (s := s) (s₂ := s₂) hd _ (readOnly_pure _) (readOnly_pure _) rfl _) fun c1 => ?_
  refine relAt_bind_ro h (readOnly_component _ _ (readOnly_required _) _) (readOnly_component _ _ (readOnly_required _) _)
    (component_rel hd _ (readOnly_required _) (readOnly_required _) (required_rel _ _ _) _) fun c2 => ?_
  refine relAt_bind_ro h (readOnly_component _ _ (readOnly_required _) _) (readOnly_component _ _ (readOnly_required _) _)
    (component_rel hd _ (readOnly_required _) (readOnly_required _) (required_rel _ _ _) _) fun c3 => ?_
  refine relAt_bind_ro h (readOnly_component _ _ (readOnly_required _) _) (readOnly_component _ _ (readOnly_required _) _)
    (component_rel hd _ (readOnly_required _) (readOnly_required _) (by rw [h.1.power]; exact required_rel _ _ _) _) fun c4 => ?_
  refine relAt_bind_ro h (readOnly_component _ _ (readOnly_hourAngleLocation _) _)
    (readOnly_component _ _ (readOnly_hourAngleLocation _) _)
    (component_rel hd _ (readOnly_hourAngleLocation _) (readOnly_hourAngleLocation _)
      (hourAngleLocation_rel h.1.location) _) fun c5 => ?_
  refine relAt_bind_ro h (readOnly_caseClearsky _ _) (readOnly_caseClearsky _ _) ?_ fun c6 => ?_
  · cases c with
    | sensor => rfl
    | clearsky => exact clearskyComponent_rel _ h.1.poa (h.2 (.inl rfl)) hd
  refine relAt_bind_ro h (readOnly_sensorClearsky _ _) (readOnly_sensorClearsky _ _) ?_ fun c7 => ?_
  · unfold sensorClearsky
    rw [← hd.has]
    split_ifs with hh
    · exact clearskyComponent_rel _ h.1.poa (h.2 (.inr hh)) hd
    · rfl
  exact relAt_bind (adHoc_rel h hd (fun d d₂ h1 h2 => h.params h1 h2) _) fun a u u₂ _ _ hu =>
    (relAt_modifyOut hu _)

theorem aggregatedFilter_rel (agg : Series) (h : AgreeS env c s s₂) :
    RelAt (AgreeS env c) s s₂ (aggregatedFilter env agg c) (aggregatedFilter env agg c) := by
  have hd := h.1.paramsAgg
  unfold aggregatedFilter
  refine relAt_self ?_
  rw [h.1.out]
  refine relAt_bind_ro h (readOnly_attr _) (readOnly_attr _) (attr_rel _ _ _) fun insol => ?_
  refine relAt_bind_ro h (readOnly_component _ _ (readOnly_pure _) _) (readOnly_component _ _ (readOnly_pure _) _)
    (component_rel (s := s) (s₂ := s₂) hd _ (readOnly_pure _) (readOnly_pure _) rfl _) fun c1 => ?_
  refine relAt_bind_ro h (readOnly_component _ _ (readOnly_pure _) _) (readOnly_component _ _ (readOnly_pure _) _)
    (component_rel (s := s) (s₂ := s₂) hd _ (readOnly_pure _) (readOnly_pure _) rfl _) fun c2 => ?_
  refine relAt_bind_ro h (readOnly_component _ _ (readOnly_pure _) _) (readOnly_component _ _ (readOnly_pure _) _)
    (component_rel (s := s) (s₂ := s₂) hd _ (readOnly_pure _) (readOnly_pure _) rfl _) fun c3 => ?_
  refine relAt_bind_ro h (readOnly_component _ _ (readOnly_pure _) _) (readOnly_component _ _ (readOnly_pure _) _)
    (component_rel (s := s) (s₂ := s₂) hd _ (readOnly_pure _) (readOnly_pure _) rfl _) fun c4 => ?_
  exact relAt_bind (adHoc_rel h hd (fun d d₂ h1 h2 => h.paramsAgg h1 h2) _) fun a u u₂ _ _ hu =>
    (relAt_modifyOut hu _)

theorem finish_rel (energy insol : Series) (h : AgreeS env c s s₂) :
    RelAt (AgreeS env c) s s₂ (finish env energy insol c) (finish env energy insol c) := by
  unfold finish
  refine relAt_bind (filter_rel _ h) fun _ u u₂ _ _ hu => ?_
  refine relAt_self ?_
  rw [hu.1.out]
  refine relAt_bind_ro hu (readOnly_attr _) (readOnly_attr _) (attr_rel _ _ _) fun mask => ?_
  refine relAt_bind_ro hu (readOnly_call _) (readOnly_call _) rfl fun xe => ?_
  refine relAt_bind_ro hu (readOnly_call _) (readOnly_call _) rfl fun xi => ?_
  refine relAt_bind_ro hu (readOnly_call _) (readOnly_call _) rfl fun r => ?_
  refine relAt_bind (relAt_modifyOut hu _) fun _ v v₂ _ _ hv => ?_
  refine relAt_bind (aggregatedFilter_rel _ hv) fun _ w w₂ _ _ hw => ?_
  refine relAt_self ?_
  rw [hw.1.out]
  refine relAt_bind_ro hw (readOnly_attr _) (readOnly_attr _) (attr_rel _ _ _) fun maskAgg => ?_
  refine relAt_bind_ro hw (readOnly_call _) (readOnly_call _) rfl fun p => ?_
  refine relAt_bind (relAt_modifyOut hw _) fun _ x x₂ _ _ hx => ?_
  refine relAt_bind_ro hx (readOnly_call _) (readOnly_call _) rfl fun q => ?_
  exact relAt_modifyOut hx _

end Verif.Chains
