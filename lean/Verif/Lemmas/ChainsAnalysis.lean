import Verif.Lemmas.ChainsAgree

/-! # Whole analyses: what they read and what they change -/

namespace Verif.Chains
variable {Loc ρ σ α β : Type} {env : Env Loc ρ σ} {c : Case} {s s₂ : TA Loc ρ σ}

theorem AgreeS.of_strong (h : Agree env c s s₂) (hp : s.poaCs = s₂.poaCs) : AgreeS env c s s₂ := ⟨h, fun _ => hp⟩

theorem AgreeS.tcell (h : AgreeS env c s s₂) (v : Option Series) :
    AgreeS env c { s with tcell := v } { s₂ with tcell := v } := by
  obtain ⟨⟨a1, a2, a3, a4, a5, a6, a7, a8, a9, a10, a11, a12, a13⟩, hp⟩ := h
  exact ⟨⟨a1, a2, a3, a4, a5, a6, a7, a8, a9, a10, fun e => ⟨rfl, (a11 e).2⟩, a12, by cases c <;> exact a13⟩, hp⟩

theorem AgreeS.tcellCs (h : AgreeS env c s s₂) (v : Option (Option Series)) :
    AgreeS env c { s with tcellCs := v } { s₂ with tcellCs := v } := by
  obtain ⟨⟨a1, a2, a3, a4, a5, a6, a7, a8, a9, a10, a11, a12, a13⟩, hp⟩ := h
  exact ⟨⟨a1, a2, a3, a4, a5, a6, a7, a8, a9, a10, a11, fun e => ⟨rfl, (a12 e).2⟩, by cases c <;> exact a13⟩, hp⟩

theorem AgreeS.tambCs (h : AgreeS env c s s₂) (v : Option (Option Series)) :
    AgreeS env c { s with tambCs := v } { s₂ with tambCs := v } := by
  obtain ⟨⟨a1, a2, a3, a4, a5, a6, a7, a8, a9, a10, a11, a12, a13⟩, hp⟩ := h
  exact ⟨⟨a1, a2, a3, a4, a5, a6, a7, a8, a9, a10, a11, fun e => ⟨(a12 e).1, rfl⟩, by cases c <;> exact a13⟩, hp⟩

theorem Agree.setPoaCs (h : Agree env c s s₂) (v : Option (Option Series)) :
    Agree env c { s with poaCs := v } { s₂ with poaCs := v } := by
  obtain ⟨a1, a2, a3, a4, a5, a6, a7, a8, a9, a10, a11, a12, a13⟩ := h
  exact ⟨a1, a2, a3, a4, a5, a6, a7, a8, a9, .inl rfl, a11, a12, by cases c <;> exact a13⟩

theorem ensureClearskyPoa_rel (h : Agree env c s s₂) :
    RelAt (fun u u₂ => Agree env c u u₂ ∧ u.poaCs = u₂.poaCs) s s₂ (ensureClearskyPoa env) (ensureClearskyPoa env) := by
  unfold ensureClearskyPoa
  refine relAt_self ?_
  rcases h.poaCs with he | ⟨hn, p, loc, v, hp, hl, ht, hv, h₂⟩
  · have hS : Agree env c s s₂ ∧ s.poaCs = s₂.poaCs := ⟨h, he⟩
    rw [he]
    refine relAt_bind_ro hS (readOnly_attr _) (readOnly_attr _) (attr_rel _ _ _) fun cs => ?_
    split_ifs
    · exact relAt_pure hS _
    · unfold calcClearskyPoa
      rw [h.poa, h.location, h.tilt]
      refine relAt_bind_ro hS (readOnly_attr _) (readOnly_attr _) (attr_rel _ _ _) fun poa => ?_
      refine relAt_bind_ro hS (readOnly_required _) (readOnly_required _) (required_rel _ _ _) fun l => ?_
      split_ifs
      · refine relAt_bind_ro hS (readOnly_attr _) (readOnly_attr _) (attr_rel _ _ _) fun loc => ?_
        refine relAt_bind_ro hS (readOnly_call _) (readOnly_call _) rfl fun v => ?_
        exact ⟨rfl, h.setPoaCs _, rfl⟩
      · exact relAt_raise hS _
  · have e1 : (do let cs ← attr s.poaCs; if cs.isSome then pure ⟨⟩ else calcClearskyPoa env s : M Loc ρ σ PUnit) s =
        (.ok ⟨⟩, { s with poaCs := some (some v) }) := by
      rw [hn]
      show calcClearskyPoa env s s = _
      unfold calcClearskyPoa
      rw [bind_run_ok (show (attr s.poa : M Loc ρ σ _) s = (.ok p, s) by rw [hp]; rfl),
        bind_run_ok (show (required s.location : M Loc ρ σ _) s = (.ok (some loc), s) by rw [hl]; rfl),
        if_pos ht, bind_run_ok (show (attr (some loc) : M Loc ρ σ _) s = (.ok loc, s) from rfl),
        bind_run_ok (show (call (env.clearskyPoa loc p) : M Loc ρ σ _) s = (.ok v, s) by rw [hv]; rfl)]
      rfl
    have e2 : (do let cs ← attr s₂.poaCs; if cs.isSome then pure ⟨⟩ else calcClearskyPoa env s₂ : M Loc ρ σ PUnit) s₂ =
        (.ok ⟨⟩, s₂) := by rw [h₂]; rfl
    unfold RelAt
    rw [e1, e2]
    refine ⟨rfl, ?_, h₂.symm⟩
    obtain ⟨a1, a2, a3, a4, a5, a6, a7, a8, a9, a10, a11, a12, a13⟩ := h
    exact ⟨a1, a2, a3, a4, a5, a6, a7, a8, a9, .inl h₂.symm, a11, a12, by cases c <;> exact a13⟩

theorem relAt_mono {R R' : TA Loc ρ σ → TA Loc ρ σ → Prop} {m m' : M Loc ρ σ α} (hR : ∀ u u₂, R u u₂ → R' u u₂)
    (h : RelAt R s s₂ m m') : RelAt R' s s₂ m m' := ⟨h.1, hR _ _ h.2⟩

theorem sensorClearskyPoa_rel (h : Agree env .sensor s s₂) :
    RelAt (AgreeS env .sensor) s s₂ (sensorClearskyPoa env s) (sensorClearskyPoa env s₂) := by
  unfold sensorClearskyPoa
  rw [← h.params.has]
  split_ifs with hh
  · exact relAt_mono (fun u u₂ hu => .of_strong hu.1 hu.2) (ensureClearskyPoa_rel h)
  · refine relAt_pure ⟨h, fun e => ?_⟩ _
    rcases e with e | e
    · cases e
    · exact absurd e hh

theorem sensorClearskyPoa_temps (s u : TA Loc ρ σ) (r : Except PyErr PUnit) (h : sensorClearskyPoa env s s = (r, u)) :
    u.tcell = s.tcell ∧ u.tamb = s.tamb ∧ u.powerExpected = s.powerExpected ∧ u.pvEnergy = s.pvEnergy ∧ u.poa = s.poa := by
  have key : ∀ v, u = { s with poaCs := v } → u.tcell = s.tcell ∧ u.tamb = s.tamb ∧
      u.powerExpected = s.powerExpected ∧ u.pvEnergy = s.pvEnergy ∧ u.poa = s.poa := by
    rintro v rfl; exact ⟨rfl, rfl, rfl, rfl, rfl⟩
  have same : u = s → _ := fun e => key s.poaCs (by rw [e])
  unfold sensorClearskyPoa at h
  split_ifs at h
  · unfold ensureClearskyPoa at h
    change (attr s.poaCs >>= _ : M Loc ρ σ PUnit) s = _ at h
    cases hcs : s.poaCs with
    | none => rw [hcs] at h; exact same (congrArg Prod.snd h).symm
    | some cs =>
      rw [hcs] at h
      change (if cs.isSome then _ else _ : M Loc ρ σ PUnit) s = _ at h
      split_ifs at h
      · exact same (congrArg Prod.snd h).symm
      · unfold calcClearskyPoa at h
        obtain ⟨q, hp⟩ : ∃ q, s.poa = q := ⟨_, rfl⟩
        cases q with
        | none => rw [hp] at h; exact same (congrArg Prod.snd h).symm
        | some p =>
          cases hl : s.location with
          | none => rw [hp, hl] at h; exact same (congrArg Prod.snd h).symm
          | some l =>
            rw [hp, hl] at h
            change (if s.tilt then _ else _ : M Loc ρ σ PUnit) s = _ at h
            split_ifs at h
            · cases l with
              | none => exact same (congrArg Prod.snd h).symm
              | some loc =>
                change (call (env.clearskyPoa loc p) >>= _ : M Loc ρ σ PUnit) s = _ at h
                cases hv : env.clearskyPoa loc p with
                | error e => rw [hv] at h; exact same (congrArg Prod.snd h).symm
                | ok v => rw [hv] at h; exact key _ (congrArg Prod.snd h).symm
            · exact same (congrArg Prod.snd h).symm
  · exact same (congrArg Prod.snd h).symm

theorem sensorNormalize_rel {u u₂ : TA Loc ρ σ} (poa : Series) (h : AgreeS env .sensor u u₂)
    (hs : s.tcell = s₂.tcell ∧ s.tamb = s₂.tamb) (he : s.powerExpected = s₂.powerExpected) (hp : s.pvEnergy = s₂.pvEnergy) :
    RelAt (AgreeS env .sensor) u u₂ (sensorNormalize env s poa) (sensorNormalize env s₂ poa) := by
  unfold sensorNormalize
  rw [he, hp]
  cases s₂.powerExpected with
  | some pe => exact relAt_call h _
  | none =>
    refine relAt_bind ?_ fun tc v v₂ _ _ hv => relAt_call hv _
    unfold sensorTcell
    rw [hs.1, hs.2]
    cases s₂.tcell with
    | some tc => exact relAt_pure h _
    | none =>
      cases s₂.tamb with
      | none => exact relAt_raise h _
      | some ta =>
        refine relAt_bind_ro h (readOnly_call _) (readOnly_call _) rfl fun v => ?_
        exact relAt_bind ⟨rfl, h.tcell _⟩ fun _ w w₂ _ _ hw => relAt_pure hw _

theorem relAt_bind_mono {R R' : TA Loc ρ σ → TA Loc ρ σ → Prop} {m m' : M Loc ρ σ α} {f f' : α → M Loc ρ σ β}
    (hR : ∀ u u₂, R u u₂ → R' u u₂) (h : RelAt R s s₂ m m')
    (hf : ∀ a u u₂, R u u₂ → RelAt R' u u₂ (f a) (f' a)) : RelAt R' s s₂ (m >>= f) (m' >>= f') := by
  unfold RelAt at h ⊢
  rw [bind_run, bind_run]
  cases h1 : m s with
  | mk r u =>
    cases h2 : m' s₂ with
    | mk r' u₂ =>
      rw [h1, h2] at h
      obtain ⟨rfl, hu⟩ := h
      cases r with
      | error e => exact ⟨rfl, hR _ _ hu⟩
      | ok a => exact hf a u u₂ hu

theorem sensorPreprocess_rel (h : Agree env .sensor s s₂) :
    RelAt (Agree env .sensor) s s₂ (sensorPreprocess env) (sensorPreprocess env) := by
  unfold sensorPreprocess
  refine relAt_self ?_
  rw [h.poa]
  cases s₂.poa with
  | none => exact ⟨rfl, h⟩
  | some p =>
    show RelAt _ s s₂ (sensorClearskyPoa env s >>= _) (sensorClearskyPoa env s₂ >>= _)
    refine relAt_bind_mono (fun _ _ hu => And.left hu) (sensorClearskyPoa_rel h) fun _ u u₂ hu => ?_
    refine relAt_bind_mono (fun _ _ hu => And.left hu)
      (sensorNormalize_rel p hu (h.temps rfl) h.expected h.energy) fun r v v₂ hv => ?_
    exact relAt_mono (fun _ _ hu => And.left hu) (finish_rel _ _ hv)

theorem clearskyTcell_rel (poaCs : Series) (h : AgreeS env .clearsky s s₂) :
    RelAt (AgreeS env .clearsky) s s₂ (clearskyTcell env s poaCs) (clearskyTcell env s₂ poaCs) := by
  unfold clearskyTcell
  rw [(h.1.tempsCs rfl).1]
  refine relAt_bind_ro h (readOnly_attr _) (readOnly_attr _) (attr_rel _ _ _) fun tc => ?_
  cases tc with
  | some v => exact relAt_pure h _
  | none =>
    refine relAt_bind ?_ fun tamb u u₂ _ _ hu => ?_
    · unfold clearskyTambient
      rw [(h.1.tempsCs rfl).2]
      refine relAt_bind_ro h (readOnly_attr _) (readOnly_attr _) (attr_rel _ _ _) fun ta => ?_
      cases ta with
      | some v => exact relAt_pure h _
      | none =>
        rw [h.1.location]
        refine relAt_bind_ro h (readOnly_required _) (readOnly_required _) (required_rel _ _ _) fun l => ?_
        refine relAt_bind_ro h (readOnly_attr _) (readOnly_attr _) (attr_rel _ _ _) fun loc => ?_
        refine relAt_bind_ro h (readOnly_call _) (readOnly_call _) rfl fun v => ?_
        exact relAt_bind ⟨rfl, h.tambCs _⟩ fun _ w w₂ _ _ hw => relAt_pure hw _
    · refine relAt_bind_ro hu (readOnly_call _) (readOnly_call _) rfl fun v => ?_
      exact relAt_bind ⟨rfl, hu.tcellCs _⟩ fun _ w w₂ _ _ hw => relAt_pure hw _

theorem clearskyPreprocess_rel (h : Agree env .clearsky s s₂) :
    RelAt (Agree env .clearsky) s s₂ (clearskyPreprocess env) (clearskyPreprocess env) := by
  unfold clearskyPreprocess
  refine relAt_bind_mono (fun _ _ hu => And.left hu) (ensureClearskyPoa_rel h) fun _ u u₂ hu => ?_
  have hS : AgreeS env .clearsky u u₂ := .of_strong hu.1 hu.2
  refine relAt_mono (R := AgreeS env .clearsky) (fun _ _ hu => And.left hu) ?_
  refine relAt_self ?_
  rw [hu.2]
  refine relAt_bind_ro hS (readOnly_attr _) (readOnly_attr _) (attr_rel _ _ _) fun cs => ?_
  refine relAt_bind_ro hS (readOnly_attr _) (readOnly_attr _) (attr_rel _ _ _) fun poaCs => ?_
  refine relAt_bind (clearskyTcell_rel poaCs hS) fun tcell v v₂ _ _ hv => ?_
  unfold clearskyNormalize
  rw [hu.1.expected, hu.1.energy]
  cases u₂.powerExpected with
  | none =>
    exact relAt_bind_ro hv (readOnly_call _) (readOnly_call _) rfl fun r => finish_rel _ _ hv
  | some pe =>
    exact relAt_bind_ro hv (readOnly_call _) (readOnly_call _) rfl fun r => finish_rel _ _ hv

theorem requested_rel (analyses : List String) (name : String) (e : Except PyErr α) (s s₂ : TA Loc ρ σ) :
    ((requested analyses name e : M Loc ρ σ _) s).1 = ((requested analyses name e : M Loc ρ σ _) s₂).1 := by
  unfold requested; split_ifs <;> rfl

theorem readOnly_requested (analyses : List String) (name : String) (e : Except PyErr α) :
    ReadOnly (requested analyses name e : M Loc ρ σ _) := by
  unfold requested; split_ifs <;> exact fun _ => rfl

theorem relAt_modifyOut' (h : Agree env c s s₂) (f : Out ρ σ → Out ρ σ) :
    RelAt (Agree env c) s s₂ (assign fun s => s.modifyOut c f) (assign fun s => s.modifyOut c f) :=
  ⟨rfl, h.modifyOut f⟩

theorem analysis_rel (h : Agree env c s s₂) (analyses : List String) (yoyKw srrKw : String) :
    RelAt (Agree env c) s s₂ (analysis env c analyses yoyKw srrKw) (analysis env c analyses yoyKw srrKw) := by
  unfold analysis
  refine relAt_bind (m := preprocess env c) (m' := preprocess env c) ?_ fun _ u u₂ _ _ hu => ?_
  · cases c
    · exact sensorPreprocess_rel h
    · exact clearskyPreprocess_rel h
  refine relAt_self ?_
  rw [hu.out, hu.daily]
  refine relAt_bind_ro hu (readOnly_attr _) (readOnly_attr _) (attr_rel _ _ _) fun perf => ?_
  refine relAt_bind_ro hu (readOnly_attr _) (readOnly_attr _) (attr_rel _ _ _) fun insol => ?_
  refine relAt_bind_ro hu (readOnly_requested _ _ _) (readOnly_requested _ _ _) (requested_rel _ _ _ _ _) fun y => ?_
  refine relAt_bind_ro hu (readOnly_requested _ _ _) (readOnly_requested _ _ _) (requested_rel _ _ _ _ _) fun z => ?_
  exact relAt_modifyOut' hu _

/-! ## what an analysis changes -/

/-- `m` started in `s` keeps `P` -/
def KeepsAt (P : TA Loc ρ σ → Prop) (s : TA Loc ρ σ) (m : M Loc ρ σ α) : Prop := P (m s).2

variable {P : TA Loc ρ σ → Prop}

theorem keepsAt_bind {m : M Loc ρ σ α} {f : α → M Loc ρ σ β} (h : KeepsAt P s m)
    (hf : ∀ a u, m s = (.ok a, u) → P u → KeepsAt P u (f a)) : KeepsAt P s (m >>= f) := by
  unfold KeepsAt at h ⊢
  rw [bind_run]
  cases h1 : m s with
  | mk r u =>
    rw [h1] at h
    cases r with
    | error e => exact h
    | ok a => exact hf a u h1 h

theorem keepsAt_ro {m : M Loc ρ σ α} (hP : P s) (hm : ReadOnly m) : KeepsAt P s m := by
  unfold KeepsAt; rw [hm]; exact hP

theorem keepsAt_bind_ro {m : M Loc ρ σ α} {f : α → M Loc ρ σ β} (hP : P s) (hm : ReadOnly m)
    (hf : ∀ a, m s = (.ok a, s) → KeepsAt P s (f a)) : KeepsAt P s (m >>= f) := by
  refine keepsAt_bind (keepsAt_ro hP hm) fun a u h1 _ => ?_
  have e := hm s
  rw [h1] at e
  simp only at e
  subst e
  exact hf a h1

theorem keepsAt_self {f : TA Loc ρ σ → M Loc ρ σ α} (h : KeepsAt P s (f s)) : KeepsAt P s (self >>= f) := h

theorem adHoc_keeps {get : TA Loc ρ σ → FilterDict FVal} {put : FilterDict FVal → TA Loc ρ σ → TA Loc ρ σ}
    (hP : P s) (hput : ∀ d, FillEq (get s) d → FillSame (get s) d → P (put d s)) (idx : List Int) : KeepsAt P s (adHoc get put idx) := by
  unfold adHoc
  refine keepsAt_self ?_
  cases hg : (get s).items.get? "ad_hoc_filter" with
  | none => exact hP
  | some v =>
    cases v with
    | kwargs k => exact hP
    | none => exact hP
    | mask m => exact hput _ (FillEq.set hg (by simp [normV, fillAdHoc_idem])) (FillSame.set hg (by simp [normV, fillAdHoc_idem]))

/-- a property of objects that survives every assignment of an analysis of case `c` -/
structure Stable (env : Env Loc ρ σ) (c : Case) (P : TA Loc ρ σ → Prop) : Prop where
  params : ∀ s d, P s → FillEq s.params d → FillSame s.params d → P { s with params := d }
  paramsAgg : ∀ s d, P s → FillEq s.paramsAgg d → FillSame s.paramsAgg d → P { s with paramsAgg := d }
  out : ∀ s f, P s → (∀ o, (f o).results = o.results) → P (s.modifyOut c f)
  poaCs : ∀ s p loc v, P s → s.poaCs = some none → s.poa = some p → s.location = some (some loc) → s.tilt = true →
    env.clearskyPoa loc p = .ok v → P { s with poaCs := some (some v) }
  tcell : ∀ s p ta v, P s → c = .sensor → s.tcell = none → s.powerExpected = none → s.poa = some p → s.tamb = some ta →
    env.cellTemp p ta true = .ok v → P { s with tcell := some v }
  tcellCs : ∀ s cs ta v, P s → c = .clearsky → s.tcellCs = some none → s.poaCs = some (some cs) → s.tambCs = some (some ta) →
    env.cellTemp cs ta false = .ok v → P { s with tcellCs := some (some v) }
  tambCs : ∀ s loc cs v, P s → c = .clearsky → s.tambCs = some none → s.location = some (some loc) →
    s.poaCs = some (some cs) → env.clearskyTamb loc cs = .ok v → P { s with tambCs := some (some v) }

/-- a property of objects that survives the assignments of the filters and of the aggregation -/
structure StableOut (c : Case) (P : TA Loc ρ σ → Prop) : Prop where
  params : ∀ s d, P s → FillEq s.params d → FillSame s.params d → P { s with params := d }
  paramsAgg : ∀ s d, P s → FillEq s.paramsAgg d → FillSame s.paramsAgg d → P { s with paramsAgg := d }
  out : ∀ s f, P s → (∀ o, (f o).results = o.results) → P (s.modifyOut c f)

theorem Stable.toOut (H : Stable env c P) : StableOut c P := ⟨H.params, H.paramsAgg, H.out⟩

theorem keepsAt_out (H : StableOut c P) (hP : P s) {f : Out ρ σ → Out ρ σ} (hf : ∀ o, (f o).results = o.results) :
    KeepsAt P s (assign fun s => s.modifyOut c f) := H.out s f hP hf

theorem filter_keeps (H : StableOut c P) (hP : P s) (energy : Series) : KeepsAt P s (filter env energy c) := by
  unfold filter
  refine keepsAt_self ?_
  refine keepsAt_bind_ro hP (readOnly_casePoa _ _) fun poa _ => ?_
  refine keepsAt_bind_ro hP (readOnly_caseTcell _ _) fun tcell _ => ?_
  refine keepsAt_bind_ro hP (readOnly_component _ _ (readOnly_pure _) _) fun c1 _ => ?_
  refine keepsAt_bind_ro hP (readOnly_component _ _ (readOnly_required _) _) fun c2 _ => ?_
  refine keepsAt_bind_ro hP (readOnly_component _ _ (readOnly_required _) _) fun c3 _ => ?_
  refine keepsAt_bind_ro hP (readOnly_component _ _ (readOnly_required _) _) fun c4 _ => ?_
  refine keepsAt_bind_ro hP (readOnly_component _ _ (readOnly_hourAngleLocation _) _) fun c5 _ => ?_
  refine keepsAt_bind_ro hP (readOnly_caseClearsky _ _) fun c6 _ => ?_
  refine keepsAt_bind_ro hP (readOnly_sensorClearsky _ _) fun c7 _ => ?_
  refine keepsAt_bind (adHoc_keeps hP (fun d hd hv => H.params s d hP hd hv) _) fun c8 u _ hu => ?_
  exact keepsAt_out H hu fun _ => rfl

theorem aggregatedFilter_keeps (H : StableOut c P) (hP : P s) (agg : Series) :
    KeepsAt P s (aggregatedFilter env agg c) := by
  unfold aggregatedFilter
  refine keepsAt_self ?_
  refine keepsAt_bind_ro hP (readOnly_attr _) fun insol _ => ?_
  refine keepsAt_bind_ro hP (readOnly_component _ _ (readOnly_pure _) _) fun c1 _ => ?_
  refine keepsAt_bind_ro hP (readOnly_component _ _ (readOnly_pure _) _) fun c2 _ => ?_
  refine keepsAt_bind_ro hP (readOnly_component _ _ (readOnly_pure _) _) fun c3 _ => ?_
  refine keepsAt_bind_ro hP (readOnly_component _ _ (readOnly_pure _) _) fun c4 _ => ?_
  refine keepsAt_bind (adHoc_keeps hP (fun d hd hv => H.paramsAgg s d hP hd hv) _) fun c5 u _ hu => ?_
  exact keepsAt_out H hu fun _ => rfl

theorem finish_keeps (H : StableOut c P) (hP : P s) (energy insol : Series) :
    KeepsAt P s (finish env energy insol c) := by
  unfold finish
  refine keepsAt_bind (filter_keeps H hP _) fun _ u _ hu => ?_
  refine keepsAt_self ?_
  refine keepsAt_bind_ro hu (readOnly_attr _) fun mask _ => ?_
  refine keepsAt_bind_ro hu (readOnly_call _) fun xe _ => ?_
  refine keepsAt_bind_ro hu (readOnly_call _) fun xi _ => ?_
  refine keepsAt_bind_ro hu (readOnly_call _) fun r _ => ?_
  refine keepsAt_bind (keepsAt_out H hu fun _ => rfl) fun _ v _ hv => ?_
  refine keepsAt_bind (aggregatedFilter_keeps H hv _) fun _ w _ hw => ?_
  refine keepsAt_self ?_
  refine keepsAt_bind_ro hw (readOnly_attr _) fun maskAgg _ => ?_
  refine keepsAt_bind_ro hw (readOnly_call _) fun p _ => ?_
  refine keepsAt_bind (keepsAt_out H hw fun _ => rfl) fun _ x _ hx => ?_
  refine keepsAt_bind_ro hx (readOnly_call _) fun q _ => ?_
  exact keepsAt_out H hx fun _ => rfl

theorem ensureClearskyPoa_keeps (H : Stable env c P) (hP : P s) : KeepsAt P s (ensureClearskyPoa env) := by
  unfold ensureClearskyPoa
  refine keepsAt_self ?_
  refine keepsAt_bind_ro hP (readOnly_attr _) fun cs hcs => ?_
  have ecs := (attr_ok hcs).1
  cases cs with
  | some v => exact hP
  | none =>
    show KeepsAt P s (calcClearskyPoa env s)
    unfold calcClearskyPoa
    refine keepsAt_bind_ro hP (readOnly_attr _) fun p hp => ?_
    refine keepsAt_bind_ro hP (readOnly_required _) fun l hl => ?_
    by_cases ht : s.tilt = true
    · rw [if_pos ht]
      refine keepsAt_bind_ro hP (readOnly_attr _) fun loc hloc => ?_
      refine keepsAt_bind_ro hP (readOnly_call _) fun v hv => ?_
      have e1 := (attr_ok hp).1
      have e2 := (required_ok hl).1
      have e3 := (attr_ok hloc).1
      rw [call_run, Prod.mk.injEq] at hv
      exact H.poaCs s p loc v hP ecs e1 (by rw [e2, e3]) ht hv.1
    · rw [if_neg ht]; exact hP

theorem sensorPreprocess_keeps (H : Stable env .sensor P) (hP : P s) : KeepsAt P s (sensorPreprocess env) := by
  unfold sensorPreprocess
  refine keepsAt_self ?_
  refine keepsAt_bind_ro hP (readOnly_required _) fun poa hpoa => ?_
  refine keepsAt_bind ?_ fun _ u hsu hu => ?_
  · unfold sensorClearskyPoa
    split_ifs
    · exact ensureClearskyPoa_keeps H hP
    · exact hP
  obtain ⟨e1, e2, e3, -, e5⟩ := sensorClearskyPoa_temps s u _ hsu
  refine keepsAt_bind ?_ fun r v _ hv => finish_keeps H.toOut hv _ _
  unfold sensorNormalize
  cases hpe : s.powerExpected with
  | some pe => exact hu
  | none =>
    refine keepsAt_bind ?_ fun tc w _ hw => keepsAt_ro hw (readOnly_call _)
    unfold sensorTcell
    cases htc : s.tcell with
    | some tc => exact hu
    | none =>
      cases hta : s.tamb with
      | none => exact hu
      | some ta =>
        refine keepsAt_bind_ro hu (readOnly_call _) fun v hv => ?_
        rw [call_run, Prod.mk.injEq] at hv
        exact H.tcell u poa ta v hu rfl (e1.trans htc) (e3.trans hpe) (e5.trans (required_ok hpoa).1) (e2.trans hta) hv.1

/-- what `clearskyTambient` leaves behind -/
theorem clearskyTambient_run {poaCs ta : Series} {u w : TA Loc ρ σ} (h : clearskyTambient env u poaCs u = (.ok ta, w)) :
    (w = u ∧ u.tambCs = some (some ta)) ∨ w = { u with tambCs := some (some ta) } := by
  unfold clearskyTambient at h
  cases ha : u.tambCs with
  | none => rw [ha] at h; cases h
  | some o =>
    rw [ha] at h
    cases o with
    | some v => cases h; exact .inl ⟨rfl, rfl⟩
    | none =>
      obtain ⟨q, hl⟩ : ∃ q, u.location = q := ⟨_, rfl⟩
      cases q with
      | none => rw [hl] at h; cases h
      | some l =>
        rw [hl] at h
        cases l with
        | none => cases h
        | some loc =>
          change (call (env.clearskyTamb loc poaCs) >>= _ : M Loc ρ σ Series) u = _ at h
          cases hv : env.clearskyTamb loc poaCs with
          | error e => rw [hv] at h; cases h
          | ok v => rw [hv] at h; cases h; exact .inr rfl

theorem clearskyPreprocess_keeps (H : Stable env .clearsky P) (hP : P s) : KeepsAt P s (clearskyPreprocess env) := by
  unfold clearskyPreprocess
  refine keepsAt_bind (ensureClearskyPoa_keeps H hP) fun _ u _ hu => ?_
  refine keepsAt_self ?_
  refine keepsAt_bind_ro hu (readOnly_attr _) fun cs hcs => ?_
  refine keepsAt_bind_ro hu (readOnly_attr _) fun poaCs hpoa => ?_
  have ecs : u.poaCs = some (some poaCs) := by rw [(attr_ok hcs).1, (attr_ok hpoa).1]
  refine keepsAt_bind ?_ fun tcell v _ hv => ?_
  · unfold clearskyTcell
    refine keepsAt_bind_ro hu (readOnly_attr _) fun tc htc => ?_
    have etc := (attr_ok htc).1
    cases tc with
    | some v => exact hu
    | none =>
      refine keepsAt_bind ?_ fun tamb w hw' hw => ?_
      · unfold clearskyTambient
        refine keepsAt_bind_ro hu (readOnly_attr _) fun ta hta => ?_
        have eta := (attr_ok hta).1
        cases ta with
        | some v => exact hu
        | none =>
          refine keepsAt_bind_ro hu (readOnly_required _) fun l hl => ?_
          refine keepsAt_bind_ro hu (readOnly_attr _) fun loc hloc => ?_
          refine keepsAt_bind_ro hu (readOnly_call _) fun v hv => ?_
          rw [call_run, Prod.mk.injEq] at hv
          exact H.tambCs u loc poaCs v hu rfl eta (by rw [(required_ok hl).1, (attr_ok hloc).1]) ecs hv.1
      · refine keepsAt_bind_ro hw (readOnly_call _) fun v hv => ?_
        rw [call_run, Prod.mk.injEq] at hv
        rcases clearskyTambient_run hw' with ⟨rfl, ha⟩ | rfl
        · exact H.tcellCs _ poaCs tamb v hw rfl etc ecs ha hv.1
        · exact H.tcellCs _ poaCs tamb v hw rfl etc ecs rfl hv.1
  · refine keepsAt_bind_ro hv ?_ fun r _ => finish_keeps H.toOut hv _ _
    unfold clearskyNormalize
    cases u.powerExpected <;> exact readOnly_call _

theorem preprocess_keeps (H : Stable env c P) (hP : P s) : KeepsAt P s (preprocess env c) := by
  cases c
  · exact sensorPreprocess_keeps H hP
  · exact clearskyPreprocess_keeps H hP

/-- an analysis: a failed call keeps every stable property, a successful one ends by storing its results -/
theorem analysis_keeps (H : Stable env c P) (hP : P s) (analyses : List String) (yoyKw srrKw : String) :
    (∃ e u, P u ∧ analysis env c analyses yoyKw srrKw s = (.error e, u)) ∨
    ∃ u perf insol y z, P u ∧ preprocess env c s = (.ok (), u) ∧
      (u.out c).performance = some perf ∧ (u.out c).insolation = some insol ∧
      (requested analyses "yoy_degradation" (yoyDegradation env yoyKw perf) : M Loc ρ σ _) u = (.ok y, u) ∧
      (requested analyses "srr_soiling" (srrSoiling env u.aggDaily srrKw perf insol) : M Loc ρ σ _) u = (.ok z, u) ∧
      analysis env c analyses yoyKw srrKw s =
        (.ok (), u.modifyOut c fun o => { o with results := some ⟨y, z⟩ }) := by
  have hk := preprocess_keeps H hP
  unfold KeepsAt at hk
  unfold analysis
  cases h1 : preprocess env c s with
  | mk r u =>
    rw [h1] at hk
    simp only at hk
    cases r with
    | error e => exact .inl ⟨e, u, hk, bind_run_error h1⟩
    | ok a =>
      rw [bind_run_ok h1, bind_run_ok (self_run u)]
      cases hp : (u.out c).performance with
      | none => exact .inl ⟨.attributeError, u, hk, rfl⟩
      | some perf =>
        rw [bind_run_ok (show (attr (some perf) : M Loc ρ σ _) u = (.ok perf, u) from rfl)]
        cases hi : (u.out c).insolation with
        | none => exact .inl ⟨.attributeError, u, hk, rfl⟩
        | some insol =>
          rw [bind_run_ok (show (attr (some insol) : M Loc ρ σ _) u = (.ok insol, u) from rfl)]
          cases hy : (requested analyses "yoy_degradation" (yoyDegradation env yoyKw perf) : M Loc ρ σ _) u with
          | mk ry uy =>
            have ey := readOnly_requested (Loc := Loc) (ρ := ρ) (σ := σ) analyses "yoy_degradation"
              (yoyDegradation env yoyKw perf) u
            rw [hy] at ey
            simp only at ey
            subst ey
            cases ry with
            | error e => exact .inl ⟨e, uy, hk, bind_run_error hy⟩
            | ok y =>
              rw [bind_run_ok hy]
              cases hz : (requested analyses "srr_soiling" (srrSoiling env uy.aggDaily srrKw perf insol) : M Loc ρ σ _) uy with
              | mk rz uz =>
                have ez := readOnly_requested (Loc := Loc) (ρ := ρ) (σ := σ) analyses "srr_soiling"
                  (srrSoiling env uy.aggDaily srrKw perf insol) uy
                rw [hz] at ez
                simp only at ez
                subst ez
                cases rz with
                | error e => exact .inl ⟨e, uz, hk, bind_run_error hz⟩
                | ok z =>
                  rw [bind_run_ok hz]
                  exact .inr ⟨uz, perf, insol, y, z, hk, by cases a; rfl, hp, hi, hy, hz, rfl⟩

end Verif.Chains
