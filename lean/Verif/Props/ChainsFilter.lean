import Verif.Lemmas.ChainsAnalysis

/-! # Properties C53, C54 (combination of the filters, missing inputs) -/

namespace Verif.Chains
variable {Loc ρ σ α : Type}

/-- `Applied env s energy c name r`: filter `name` takes part in the filtering for case `c`, and `r` is what its
function returns for the data and parameters of `s` -/
inductive Spec.Applied (env : Env Loc ρ σ) (s : TA Loc ρ σ) (energy : Series) :
    Case → String → Except PyErr BMask → Prop
  | normalized {c kw} : s.params.items.get? "normalized_filter" = some (.kwargs kw) →
      Applied env s energy c "normalized_filter" (env.normalizedF kw energy)
  | poaSensor {kw p} : s.params.items.get? "poa_filter" = some (.kwargs kw) → s.poa = some p →
      Applied env s energy .sensor "poa_filter" (env.poaF kw p)
  | poaClearsky {kw p} : s.params.items.get? "poa_filter" = some (.kwargs kw) → s.poaCs = some (some p) →
      Applied env s energy .clearsky "poa_filter" (env.poaF kw p)
  | tcellSensor {kw x} : s.params.items.get? "tcell_filter" = some (.kwargs kw) → s.tcell = some x →
      Applied env s energy .sensor "tcell_filter" (env.tcellF kw x)
  | tcellClearsky {kw x} : s.params.items.get? "tcell_filter" = some (.kwargs kw) → s.tcellCs = some (some x) →
      Applied env s energy .clearsky "tcell_filter" (env.tcellF kw x)
  | clip {c kw x} : s.params.items.get? "clip_filter" = some (.kwargs kw) → s.pvPower = some x →
      Applied env s energy c "clip_filter" (env.clipF kw x)
  | hourAngle {c kw loc} : s.params.items.get? "hour_angle_filter" = some (.kwargs kw) →
      s.location = some (some loc) →
      Applied env s energy c "hour_angle_filter" (env.hourAngleF kw energy loc)
  | clearsky {kw p p'} : s.params.items.get? "clearsky_filter" = some (.kwargs kw) → s.poa = some p →
      s.poaCs = some (some p') →
      Applied env s energy .clearsky "clearsky_filter" (env.clearskyF kw p p')
  | sensorClearsky {c kw p p'} : s.params.items.get? "sensor_clearsky_filter" = some (.kwargs kw) →
      s.poa = some p → s.poaCs = some (some p') →
      Applied env s energy c "sensor_clearsky_filter" (env.clearskyF kw p p')

/-- the ad hoc filter accepts a timestamp: it has no entry for it, or the entry is True -/
def Spec.AdHocAccepts (d : FilterDict FVal) (t : Int) : Prop :=
  ∀ m, d.items.get? "ad_hoc_filter" = some (.mask m) → ∀ b, maskGet m t = some b → b = some true

/-- an enabled filter lacks an input -/
inductive Spec.MissingInput (s : TA Loc ρ σ) : Case → Prop
  | poa : s.params.items.has "poa_filter" = true → s.poa = none → MissingInput s .sensor
  | poaClearsky : s.params.items.has "poa_filter" = true → s.poaCs = some none → MissingInput s .clearsky
  | tcell : s.params.items.has "tcell_filter" = true → s.tcell = none → MissingInput s .sensor
  | tcellClearsky : s.params.items.has "tcell_filter" = true → s.tcellCs = some none → MissingInput s .clearsky
  | power {c} : s.params.items.has "clip_filter" = true → s.pvPower = none → MissingInput s c
  | location {c} : s.params.items.has "hour_angle_filter" = true → s.location = none → MissingInput s c
  | clearsky : (s.poa = none ∨ s.poaCs = some none) → MissingInput s .clearsky
  | sensorClearsky {c} : s.params.items.has "sensor_clearsky_filter" = true →
      (s.poa = none ∨ s.poaCs = some none) → MissingInput s c

/-- the filters that can take part in case `c`, apart from the ad hoc filter -/
def Spec.names : Case → List String
  | .sensor => ["normalized_filter", "poa_filter", "tcell_filter", "clip_filter", "hour_angle_filter",
      "sensor_clearsky_filter"]
  | .clearsky => ["normalized_filter", "poa_filter", "tcell_filter", "clip_filter", "hour_angle_filter",
      "clearsky_filter", "sensor_clearsky_filter"]

theorem adHoc_names {get : TA Loc ρ σ → FilterDict FVal} {put : FilterDict FVal → TA Loc ρ σ → TA Loc ρ σ} {idx : List Int}
    {s s' : TA Loc ρ σ} {l : List (String × BMask)} (h : adHoc get put idx s = (.ok l, s')) :
    l.length ≤ 1 ∧ ∀ x ∈ l, x.1 = "ad_hoc_filter" := by
  unfold adHoc at h
  obtain ⟨_, _, h0, h⟩ := bind_ok.mp h
  cases h0
  cases hg : (get s).items.get? "ad_hoc_filter" with
  | none => rw [hg] at h; cases h; simp
  | some v =>
    rw [hg] at h
    cases v with
    | none => cases h; simp
    | kwargs _ => cases h
    | mask m =>
      obtain ⟨_, _, -, h⟩ := bind_ok.mp h
      cases h
      simp

/-- `filter` as an explicit list of components -/
theorem filter_ok {env : Env Loc ρ σ} {energy : Series} {c : Case} {s s' : TA Loc ρ σ}
    (h : filter env energy c s = (.ok (), s')) :
    ∃ comps : List (String × BMask), ∃ idx : List Int, ∃ adhoc : List (String × BMask),
      (∀ x ∈ comps, Spec.Applied env s energy c x.1 (.ok x.2)) ∧
      (∀ name r, Spec.Applied env s energy c name r → ∃ m, r = .ok m ∧ (name, m) ∈ comps) ∧
      (idx = unionIndex (defaultMask energy :: comps.map Prod.snd) ∧ adhoc.length ≤ 1 ∧ ∀ x ∈ adhoc, x.1 = "ad_hoc_filter") ∧
      (∀ t ∈ idx, (∀ x ∈ adhoc, verdictAt x.2 t = true) ↔ Spec.AdHocAccepts s.params t) ∧
      (s'.out c).mask = some (allTrue idx (defaultMask energy) (comps ++ adhoc)) ∧
      (s'.out c).components = some (aligned idx (comps ++ adhoc)) ∧
      ¬ Spec.MissingInput s c ∧
      (c = .clearsky → s.params.items.get? "clearsky_filter" ≠ none) ∧
      ∀ name ∈ Spec.names c, s.params.items.get? name ≠ none → ∃ r, Spec.Applied env s energy c name r := by
  unfold filter at h
  replace h := bind_ok.mp h
  obtain ⟨_, _, h0, h⟩ := h
  cases h0
  replace h := bind_ok.mp h
  obtain ⟨poa, s1, h1, h⟩ := h
  obtain ⟨rfl, hpoa⟩ := casePoa_ok h1
  replace h := bind_ok.mp h
  obtain ⟨tcell, s2, h2, h⟩ := h
  obtain ⟨rfl, htc⟩ := caseTcell_ok h2
  replace h := bind_ok.mp h
  obtain ⟨l1, s3, h1, h⟩ := h
  obtain ⟨rfl, c1⟩ := component_ok (readOnly_pure _) h1
  replace h := bind_ok.mp h
  obtain ⟨l2, s4, h2, h⟩ := h
  obtain ⟨rfl, c2⟩ := component_ok (readOnly_required _) h2
  replace h := bind_ok.mp h
  obtain ⟨l3, s5, h3, h⟩ := h
  obtain ⟨rfl, c3⟩ := component_ok (readOnly_required _) h3
  replace h := bind_ok.mp h
  obtain ⟨l4, s6, h4, h⟩ := h
  obtain ⟨rfl, c4⟩ := component_ok (readOnly_required _) h4
  replace h := bind_ok.mp h
  obtain ⟨l5, s7, h5, h⟩ := h
  obtain ⟨rfl, c5⟩ := component_ok (readOnly_bind (readOnly_required _) fun _ => readOnly_attr _) h5
  replace h := bind_ok.mp h
  obtain ⟨l6, s8, h6, h⟩ := h
  have c6 : s8 = s7 ∧ ((c = .sensor ∧ l6 = []) ∨ (c = .clearsky ∧ ∃ kw p p' m,
      s7.params.items.get? "clearsky_filter" = some (.kwargs kw) ∧ s7.poa = some p ∧
      s7.poaCs = some (some p') ∧ env.clearskyF kw p p' = .ok m ∧ l6 = [("clearsky_filter", m)])) := by
    cases c with
    | sensor => cases h6; exact ⟨rfl, .inl ⟨rfl, rfl⟩⟩
    | clearsky => obtain ⟨a, b⟩ := clearskyComponent_ok h6; exact ⟨a, .inr ⟨rfl, b⟩⟩
  obtain ⟨rfl, c6⟩ := c6
  replace h := bind_ok.mp h
  obtain ⟨l7, s9, h7, h⟩ := h
  have c7 : s9 = s8 ∧ ((s8.params.items.get? "sensor_clearsky_filter" = none ∧ l7 = []) ∨ (∃ kw p p' m,
      s8.params.items.get? "sensor_clearsky_filter" = some (.kwargs kw) ∧ s8.poa = some p ∧
      s8.poaCs = some (some p') ∧ env.clearskyF kw p p' = .ok m ∧ l7 = [("sensor_clearsky_filter", m)])) := by
    unfold sensorClearsky Dict.has at h7
    cases hg : s8.params.items.get? "sensor_clearsky_filter" with
    | none => rw [hg] at h7; cases h7; exact ⟨rfl, .inl ⟨rfl, rfl⟩⟩
    | some v => rw [hg] at h7; obtain ⟨a, b⟩ := clearskyComponent_ok h7; rw [hg] at b; exact ⟨a, .inr b⟩
  obtain ⟨rfl, c7⟩ := c7
  replace h := bind_ok.mp h
  obtain ⟨l8, s10, h8, h⟩ := h
  rw [assign_run, Prod.mk.injEq] at h
  have hloc : ∀ {loc : Loc} {u : TA Loc ρ σ}, hourAngleLocation s9 s9 = (.ok loc, u) → s9.location = some (some loc) := by
    intro loc u hu
    replace hu := bind_ok.mp hu
    obtain ⟨a, b, hu1, hu2⟩ := hu
    obtain ⟨e1, rfl⟩ := required_ok hu1
    obtain ⟨e2, -⟩ := attr_ok hu2
    rw [e1, e2]
  have hreq : ∀ {o : Option Series} {x : Series}, (required o : M Loc ρ σ Series) s9 = (.ok x, s9) → o = some x :=
    fun hu => (required_ok hu).1
  refine ⟨l1 ++ l2 ++ l3 ++ l4 ++ l5 ++ l6 ++ l7, _, l8, ?_, ?_, ?_, fun t ht => adHoc_accepts h8 ht, ?_, ?_, ?_, ?_, ?_⟩
  · intro x hx
    simp only [List.mem_append] at hx
    rcases hx with (((((hx | hx) | hx) | hx) | hx) | hx) | hx
    · rcases c1 with ⟨-, rfl⟩ | ⟨kw, y, m, hg, hi, hf, rfl⟩
      · cases hx
      · rw [List.mem_singleton] at hx
        subst hx
        cases hi
        rw [← hf]
        exact .normalized hg
    · rcases c2 with ⟨-, rfl⟩ | ⟨kw, y, m, hg, hi, hf, rfl⟩
      · cases hx
      · rw [List.mem_singleton] at hx
        subst hx
        have hp := hreq hi
        subst hp
        simp only
        rw [← hf]
        rcases hpoa with ⟨rfl, hp⟩ | ⟨rfl, hp⟩
        · exact .poaSensor hg hp
        · exact .poaClearsky hg hp
    · rcases c3 with ⟨-, rfl⟩ | ⟨kw, y, m, hg, hi, hf, rfl⟩
      · cases hx
      · rw [List.mem_singleton] at hx
        subst hx
        have hp := hreq hi
        subst hp
        simp only
        rw [← hf]
        rcases htc with ⟨rfl, hp⟩ | ⟨rfl, hp⟩
        · exact .tcellSensor hg hp
        · exact .tcellClearsky hg hp
    · rcases c4 with ⟨-, rfl⟩ | ⟨kw, y, m, hg, hi, hf, rfl⟩
      · cases hx
      · rw [List.mem_singleton] at hx
        subst hx
        simp only
        rw [← hf]
        exact .clip hg (hreq hi)
    · rcases c5 with ⟨-, rfl⟩ | ⟨kw, y, m, hg, hi, hf, rfl⟩
      · cases hx
      · rw [List.mem_singleton] at hx
        subst hx
        simp only
        rw [← hf]
        exact .hourAngle hg (hloc hi)
    · rcases c6 with ⟨-, rfl⟩ | ⟨rfl, kw, p, p', m, hg, hp, hp', hf, rfl⟩
      · cases hx
      · rw [List.mem_singleton] at hx
        subst hx
        simp only
        rw [← hf]
        exact .clearsky hg hp hp'
    · rcases c7 with ⟨-, rfl⟩ | ⟨kw, p, p', m, hg, hp, hp', hf, rfl⟩
      · cases hx
      · rw [List.mem_singleton] at hx
        subst hx
        simp only
        rw [← hf]
        exact .sensorClearsky hg hp hp'
  · intro name r hr
    simp only [List.mem_append]
    cases hr with
    | normalized hg =>
      rcases c1 with ⟨hn, -⟩ | ⟨kw, y, m, hg', hi, hf, rfl⟩
      · rw [hn] at hg; cases hg
      · rw [hg] at hg'; cases hg'; cases hi
        exact ⟨m, hf, by simp⟩
    | poaSensor hg hp =>
      rcases c2 with ⟨hn, -⟩ | ⟨kw, y, m, hg', hi, hf, rfl⟩
      · rw [hn] at hg; cases hg
      · rw [hg] at hg'; cases hg'
        have := hreq hi
        subst this
        rcases hpoa with ⟨-, hp'⟩ | ⟨h', -⟩
        · rw [hp] at hp'; cases hp'
          exact ⟨m, hf, by simp⟩
        · cases h'
    | poaClearsky hg hp =>
      rcases c2 with ⟨hn, -⟩ | ⟨kw, y, m, hg', hi, hf, rfl⟩
      · rw [hn] at hg; cases hg
      · rw [hg] at hg'; cases hg'
        have := hreq hi
        subst this
        rcases hpoa with ⟨h', -⟩ | ⟨-, hp'⟩
        · cases h'
        · rw [hp] at hp'; cases hp'
          exact ⟨m, hf, by simp⟩
    | tcellSensor hg hp =>
      rcases c3 with ⟨hn, -⟩ | ⟨kw, y, m, hg', hi, hf, rfl⟩
      · rw [hn] at hg; cases hg
      · rw [hg] at hg'; cases hg'
        have := hreq hi
        subst this
        rcases htc with ⟨-, hp'⟩ | ⟨h', -⟩
        · rw [hp] at hp'; cases hp'
          exact ⟨m, hf, by simp⟩
        · cases h'
    | tcellClearsky hg hp =>
      rcases c3 with ⟨hn, -⟩ | ⟨kw, y, m, hg', hi, hf, rfl⟩
      · rw [hn] at hg; cases hg
      · rw [hg] at hg'; cases hg'
        have := hreq hi
        subst this
        rcases htc with ⟨h', -⟩ | ⟨-, hp'⟩
        · cases h'
        · rw [hp] at hp'; cases hp'
          exact ⟨m, hf, by simp⟩
    | clip hg hp =>
      rcases c4 with ⟨hn, -⟩ | ⟨kw, y, m, hg', hi, hf, rfl⟩
      · rw [hn] at hg; cases hg
      · rw [hg] at hg'; cases hg'
        have hp' := hreq hi
        rw [hp] at hp'; cases hp'
        exact ⟨m, hf, by simp⟩
    | hourAngle hg hp =>
      rcases c5 with ⟨hn, -⟩ | ⟨kw, y, m, hg', hi, hf, rfl⟩
      · rw [hn] at hg; cases hg
      · rw [hg] at hg'; cases hg'
        have hp' := hloc hi
        rw [hp] at hp'; cases hp'
        exact ⟨m, hf, by simp⟩
    | clearsky hg hp hp' =>
      rcases c6 with ⟨h', -⟩ | ⟨-, kw, p, p', m, hg', hq, hq', hf, rfl⟩
      · cases h'
      · rw [hg] at hg'; cases hg'
        rw [hp] at hq; cases hq
        rw [hp'] at hq'; cases hq'
        exact ⟨m, hf, by simp⟩
    | sensorClearsky hg hp hp' =>
      rcases c7 with ⟨hn, -⟩ | ⟨kw, p, p', m, hg', hq, hq', hf, rfl⟩
      · rw [hn] at hg; cases hg
      · rw [hg] at hg'; cases hg'
        rw [hp] at hq; cases hq
        rw [hp'] at hq'; cases hq'
        exact ⟨m, hf, by simp⟩
  · exact ⟨rfl, adHoc_names h8⟩
  · rw [← h.2]; cases c <;> rfl
  · rw [← h.2]; cases c <;> rfl
  · have hn : ∀ {name : String}, s9.params.items.has name = true → s9.params.items.get? name = none → False := by
      intro name h1 h2
      unfold Dict.has at h1
      rw [h2] at h1
      cases h1
    intro hm
    cases hm with
    | poa m1 m2 =>
      rcases c2 with ⟨e, -⟩ | ⟨_, _, _, -, hi, -⟩
      · exact hn m1 e
      · rcases hpoa with ⟨-, e⟩ | ⟨e, -⟩
        · rw [← e, m2] at hi; cases hi
        · cases e
    | poaClearsky m1 m2 =>
      rcases c2 with ⟨e, -⟩ | ⟨_, _, _, -, hi, -⟩
      · exact hn m1 e
      · rcases hpoa with ⟨e, -⟩ | ⟨-, e⟩
        · cases e
        · rw [m2] at e; cases e; cases hi
    | tcell m1 m2 =>
      rcases c3 with ⟨e, -⟩ | ⟨_, _, _, -, hi, -⟩
      · exact hn m1 e
      · rcases htc with ⟨-, e⟩ | ⟨e, -⟩
        · rw [← e, m2] at hi; cases hi
        · cases e
    | tcellClearsky m1 m2 =>
      rcases c3 with ⟨e, -⟩ | ⟨_, _, _, -, hi, -⟩
      · exact hn m1 e
      · rcases htc with ⟨e, -⟩ | ⟨-, e⟩
        · cases e
        · rw [m2] at e; cases e; cases hi
    | power m1 m2 =>
      rcases c4 with ⟨e, -⟩ | ⟨_, _, _, -, hi, -⟩
      · exact hn m1 e
      · rw [m2] at hi; cases hi
    | location m1 m2 =>
      rcases c5 with ⟨e, -⟩ | ⟨_, _, _, -, hi, -⟩
      · exact hn m1 e
      · rw [hloc hi] at m2; cases m2
    | clearsky m1 =>
      rcases c6 with ⟨e, -⟩ | ⟨-, _, _, _, _, -, e1, e2, -⟩
      · cases e
      · rcases m1 with m1 | m1
        · rw [m1] at e1; cases e1
        · rw [m1] at e2; cases e2
    | sensorClearsky m0 m1 =>
      rcases c7 with ⟨e, -⟩ | ⟨_, _, _, _, -, e1, e2, -⟩
      · exact hn m0 e
      · rcases m1 with m1 | m1
        · rw [m1] at e1; cases e1
        · rw [m1] at e2; cases e2
  · rintro rfl hg
    rcases c6 with ⟨e, -⟩ | ⟨-, _, _, _, _, e, -⟩
    · cases e
    · rw [e] at hg; cases hg
  · intro name hname hg
    have k1 : s9.params.items.get? "normalized_filter" ≠ none → ∃ r, Spec.Applied env s9 energy c "normalized_filter" r := by
      intro hg
      rcases c1 with ⟨e, -⟩ | ⟨kw, _, _, e, -⟩
      · exact absurd e hg
      · exact ⟨_, .normalized e⟩
    have k2 : s9.params.items.get? "poa_filter" ≠ none → ∃ r, Spec.Applied env s9 energy c "poa_filter" r := by
      intro hg
      rcases c2 with ⟨e, -⟩ | ⟨kw, x, _, e, hi, -⟩
      · exact absurd e hg
      · have e' := hreq hi
        subst e'
        rcases hpoa with ⟨rfl, e'⟩ | ⟨rfl, e'⟩
        · exact ⟨_, .poaSensor e e'⟩
        · exact ⟨_, .poaClearsky e e'⟩
    have k3 : s9.params.items.get? "tcell_filter" ≠ none → ∃ r, Spec.Applied env s9 energy c "tcell_filter" r := by
      intro hg
      rcases c3 with ⟨e, -⟩ | ⟨kw, x, _, e, hi, -⟩
      · exact absurd e hg
      · have e' := hreq hi
        subst e'
        rcases htc with ⟨rfl, e'⟩ | ⟨rfl, e'⟩
        · exact ⟨_, .tcellSensor e e'⟩
        · exact ⟨_, .tcellClearsky e e'⟩
    have k4 : s9.params.items.get? "clip_filter" ≠ none → ∃ r, Spec.Applied env s9 energy c "clip_filter" r := by
      intro hg
      rcases c4 with ⟨e, -⟩ | ⟨kw, x, _, e, hi, -⟩
      · exact absurd e hg
      · exact ⟨_, .clip e (hreq hi)⟩
    have k5 : s9.params.items.get? "hour_angle_filter" ≠ none → ∃ r, Spec.Applied env s9 energy c "hour_angle_filter" r := by
      intro hg
      rcases c5 with ⟨e, -⟩ | ⟨kw, x, _, e, hi, -⟩
      · exact absurd e hg
      · exact ⟨_, .hourAngle e (hloc hi)⟩
    have k7 : s9.params.items.get? "sensor_clearsky_filter" ≠ none →
        ∃ r, Spec.Applied env s9 energy c "sensor_clearsky_filter" r := by
      intro hg
      rcases c7 with ⟨e, -⟩ | ⟨kw, _, _, _, e, e1, e2, -⟩
      · exact absurd e hg
      · exact ⟨_, .sensorClearsky e e1 e2⟩
    cases c with
    | sensor =>
      simp only [Spec.names, List.mem_cons, List.not_mem_nil, or_false] at hname
      rcases hname with rfl | rfl | rfl | rfl | rfl | rfl
      exacts [k1 hg, k2 hg, k3 hg, k4 hg, k5 hg, k7 hg]
    | clearsky =>
      simp only [Spec.names, List.mem_cons, List.not_mem_nil, or_false] at hname
      rcases hname with rfl | rfl | rfl | rfl | rfl | rfl | rfl
      · exact k1 hg
      · exact k2 hg
      · exact k3 hg
      · exact k4 hg
      · exact k5 hg
      · rcases c6 with ⟨e, -⟩ | ⟨-, _, _, _, _, e, e1, e2, -⟩
        · cases e
        · exact ⟨_, .clearsky e e1 e2⟩
      · exact k7 hg

/-- **C53 (conjunction).** A filtering that succeeds keeps a timestamp exactly if it is a timestamp of the
normalized energy, every filter that takes part returned a mask that is True there (a timestamp missing from
a mask counts as reject), and the ad hoc filter accepts it. -/
theorem C53_conjunction {env : Env Loc ρ σ} {energy : Series} {c : Case} {s s' : TA Loc ρ σ}
    (h : filter env energy c s = (.ok (), s')) :
    ∃ mask, (s'.out c).mask = some mask ∧ ∀ t, verdictAt mask t = true ↔
      t ∈ energy.map Prod.fst ∧
      (∀ name r, Spec.Applied env s energy c name r → ∃ m, r = .ok m ∧ verdictAt m t = true) ∧
      Spec.AdHocAccepts s.params t := by
  obtain ⟨comps, idx, adhoc, h1, h2, ⟨hidx, -⟩, h4, h5, -, -⟩ := filter_ok h
  have h3 : ∀ t ∈ energy.map Prod.fst, t ∈ idx := by
    intro t ht
    rw [hidx, mem_unionIndex]
    refine ⟨defaultMask energy, by simp, ?_⟩
    simpa [defaultMask, List.map_map, Function.comp] using ht
  refine ⟨_, h5, fun t => ?_⟩
  rw [verdictAt_allTrue (fun t ht => h3 t (by simpa [defaultMask, List.map_map, Function.comp] using ht)),
    verdictAt_default]
  constructor
  · rintro ⟨ht, hall⟩
    refine ⟨ht, fun name r hr => ?_, ?_⟩
    · obtain ⟨m, rfl, hm⟩ := h2 name r hr
      exact ⟨m, rfl, hall _ (List.mem_append_left _ hm)⟩
    · exact (h4 t (h3 t ht)).mp fun x hx => hall x (List.mem_append_right _ hx)
  · rintro ⟨ht, hap, had⟩
    refine ⟨ht, fun x hx => ?_⟩
    rcases List.mem_append.mp hx with hx | hx
    · obtain ⟨m, hm, hv⟩ := hap _ _ (h1 x hx)
      rw [Except.ok.injEq] at hm
      rw [hm]; exact hv
    · exact (h4 t (h3 t ht)).mpr had x hx

/-- two columns with the same verdicts -/
theorem verdict_eq {a b : BMask} {t : Int} (h : verdictAt a t = true ↔ verdictAt b t = true) : verdictAt a t = verdictAt b t :=
  Bool.eq_iff_iff.mpr h

/-- **C53 (stored components).** The columns stored for a filtering that succeeds all have the timestamps of the stored mask, which are
those of the normalized energy and of all masks returned by filters. Every filter that took part has a column with its verdicts,
and there are no other columns than these and at most one for the ad hoc filter. -/
theorem C53_components {env : Env Loc ρ σ} {energy : Series} {c : Case} {s s' : TA Loc ρ σ}
    (h : filter env energy c s = (.ok (), s')) :
    ∃ mask comps, (s'.out c).mask = some mask ∧ (s'.out c).components = some comps ∧
      (mask.map Prod.fst).Nodup ∧
      (∀ t, t ∈ mask.map Prod.fst ↔ t ∈ energy.map Prod.fst ∨
        ∃ name m, Spec.Applied env s energy c name (.ok m) ∧ t ∈ m.map Prod.fst) ∧
      (∀ x ∈ comps, x.2.map Prod.fst = mask.map Prod.fst) ∧
      (∀ name m, Spec.Applied env s energy c name (.ok m) → ∃ col, (name, col) ∈ comps ∧ ∀ t, verdictAt col t = verdictAt m t) ∧
      (∀ x ∈ comps, (∃ m, Spec.Applied env s energy c x.1 (.ok m) ∧ ∀ t, verdictAt x.2 t = verdictAt m t) ∨
        (x.1 = "ad_hoc_filter" ∧ ∀ t ∈ mask.map Prod.fst, verdictAt x.2 t = true ↔ Spec.AdHocAccepts s.params t)) ∧
      ∀ t ∈ mask.map Prod.fst, verdictAt mask t = true ↔ t ∈ energy.map Prod.fst ∧ ∀ x ∈ comps, verdictAt x.2 t = true := by
  obtain ⟨comps, idx, adhoc, h1, h2, ⟨hidx, hlen, hname⟩, h4, h5, h6, -⟩ := filter_ok h
  have hfst : (allTrue idx (defaultMask energy) (comps ++ adhoc)).map Prod.fst = idx := by
    simp [allTrue, List.map_map, Function.comp_def]
  have hcol : ∀ (m : BMask) (t : Int), verdictAt (idx.map fun t => (t, verdictAt m t)) t = true ↔ t ∈ idx ∧ verdictAt m t = true :=
    fun m t => verdictAt_map ..
  have hin : ∀ x ∈ comps, ∀ t, verdictAt (idx.map fun t => (t, verdictAt x.2 t)) t = verdictAt x.2 t := by
    intro x hx t
    refine verdict_eq ((hcol _ t).trans ⟨fun h => h.2, fun h => ⟨?_, h⟩⟩)
    rw [hidx, mem_unionIndex]
    exact ⟨x.2, by simp only [List.mem_cons, List.mem_map]; exact .inr ⟨x, hx, rfl⟩, verdictAt_mem h⟩
  refine ⟨_, _, h5, h6, ?_, fun t => ?_, ?_, ?_, ?_, ?_⟩
  · rw [hfst, hidx]
    exact ((List.perm_insertionSort _ _).nodup_iff).mpr (List.nodup_dedup _)
  · rw [hfst, hidx, mem_unionIndex]
    constructor
    · rintro ⟨m, hm, ht⟩
      rcases List.mem_cons.mp hm with rfl | hm
      · left
        simpa [defaultMask, List.map_map, Function.comp] using ht
      · obtain ⟨x, hx, rfl⟩ := List.mem_map.mp hm
        exact .inr ⟨x.1, x.2, h1 x hx, ht⟩
    · rintro (ht | ⟨name, m, ha, ht⟩)
      · refine ⟨defaultMask energy, by simp, ?_⟩
        simpa [defaultMask, List.map_map, Function.comp] using ht
      · obtain ⟨m', hm', hmem⟩ := h2 name _ ha
        cases hm'
        exact ⟨m, by simp only [List.mem_cons, List.mem_map]; exact .inr ⟨(name, m), hmem, rfl⟩, ht⟩
  · intro x hx
    unfold aligned at hx
    obtain ⟨y, -, rfl⟩ := List.mem_map.mp hx
    rw [hfst]
    simp [List.map_map, Function.comp_def]
  · intro name m ha
    obtain ⟨m', hm', hmem⟩ := h2 name _ ha
    cases hm'
    exact ⟨_, List.mem_map.mpr ⟨(name, m), List.mem_append_left _ hmem, rfl⟩, hin (name, m) hmem⟩
  · intro x hx
    unfold aligned at hx
    obtain ⟨y, hy, rfl⟩ := List.mem_map.mp hx
    rcases List.mem_append.mp hy with hy | hy
    · exact .inl ⟨y.2, h1 y hy, hin y hy⟩
    · refine .inr ⟨hname y hy, fun t ht => ?_⟩
      rw [hfst] at ht
      rw [hcol, ← h4 t ht]
      constructor
      · rintro ⟨-, hv⟩ z hz
        have : z = y := by
          match adhoc, hlen, hy, hz with
          | [a], _, hy, hz => simp at hy hz; rw [hy, hz]
        rw [this]
        exact hv
      · intro hv
        exact ⟨ht, hv y hy⟩
  · intro t ht
    rw [hfst] at ht
    rw [verdictAt_allTrue (fun t ht => by rw [hidx, mem_unionIndex]; exact ⟨_, by simp, ht⟩), verdictAt_default]
    refine and_congr_right fun _ => ?_
    constructor
    · intro hv x hx
      unfold aligned at hx
      obtain ⟨y, hy, rfl⟩ := List.mem_map.mp hx
      exact (hcol _ t).mpr ⟨ht, hv y hy⟩
    · intro hv y hy
      exact ((hcol _ t).mp (hv _ (List.mem_map.mpr ⟨y, hy, rfl⟩))).2

/-- **C53 (enabled filters take part).** A filtering that succeeds has applied every filter enabled for its case. -/
theorem C53_enabled {env : Env Loc ρ σ} {energy : Series} {c : Case} {s s' : TA Loc ρ σ}
    (h : filter env energy c s = (.ok (), s')) {name : String} (hname : name ∈ Spec.names c)
    (hen : s.params.items.get? name ≠ none) : ∃ r, Spec.Applied env s energy c name r := by
  obtain ⟨_, _, _, -, -, -, -, -, -, -, -, h9⟩ := filter_ok h
  exact h9 name hname hen

/-- **C53 (more filters, fewer points).** If the dictionary of `s₂` contains all filters of `s` with the same
parameters, and possibly more, the filtering of `s₂` keeps no point that the filtering of `s` rejects. -/
theorem C53_only_removes {env : Env Loc ρ σ} {energy : Series} {c : Case} {s s₂ s' s₂' : TA Loc ρ σ}
    {d : FilterDict FVal} (hs : s₂ = { s with params := d })
    (hd : ∀ k v, s.params.items.get? k = some v → v ≠ .none → d.items.get? k = some v)
    (h : filter env energy c s = (.ok (), s')) (h₂ : filter env energy c s₂ = (.ok (), s₂'))
    {m m₂ : BMask} (hm : (s'.out c).mask = some m) (hm₂ : (s₂'.out c).mask = some m₂) {t : Int}
    (ht : verdictAt m₂ t = true) : verdictAt m t = true := by
  subst hs
  obtain ⟨_, e, hc⟩ := C53_conjunction h
  obtain ⟨_, e₂, hc₂⟩ := C53_conjunction h₂
  rw [hm] at e
  rw [hm₂] at e₂
  cases e
  cases e₂
  obtain ⟨h1, h2, h3⟩ := (hc₂ t).mp ht
  refine (hc t).mpr ⟨h1, fun name r hr => h2 name r ?_, fun mk hmk => h3 mk (hd _ _ hmk (by simp))⟩
  cases hr with
  | normalized hg => exact .normalized (hd _ _ hg (by simp))
  | poaSensor hg hp => exact .poaSensor (hd _ _ hg (by simp)) hp
  | poaClearsky hg hp => exact .poaClearsky (hd _ _ hg (by simp)) hp
  | tcellSensor hg hp => exact .tcellSensor (hd _ _ hg (by simp)) hp
  | tcellClearsky hg hp => exact .tcellClearsky (hd _ _ hg (by simp)) hp
  | clip hg hp => exact .clip (hd _ _ hg (by simp)) hp
  | hourAngle hg hp => exact .hourAngle (hd _ _ hg (by simp)) hp
  | clearsky hg hp hp' => exact .clearsky (hd _ _ hg (by simp)) hp hp'
  | sensorClearsky hg hp hp' => exact .sensorClearsky (hd _ _ hg (by simp)) hp hp'

/-- **C53 (order).** The order in which the filters were put into the dictionary does not matter: a dictionary
with the same entries gives the same outcome, the same mask and the same components. -/
theorem C53_order (env : Env Loc ρ σ) (energy : Series) (c : Case) (s : TA Loc ρ σ) (d : FilterDict FVal)
    (hd : ∀ k, d.items.get? k = s.params.items.get? k) :
    (filter env energy c s).1 = (filter env energy c { s with params := d }).1 ∧
    (filter env energy c s).2.out c = (filter env energy c { s with params := d }).2.out c := by
  have ha := Agree.refl env c s
  have hA : AgreeS env c s { s with params := d } := by
    obtain ⟨a1, a2, a3, a4, a5, a6, a7, a8, a9, a10, a11, a12, a13⟩ := ha
    exact ⟨⟨a1, a2, a3, a4, a5, fun k => by rw [← hd k], a7, a8, a9, a10, a11, a12, by cases c <;> exact a13⟩, fun _ => rfl⟩
  have := filter_rel energy hA
  exact ⟨this.1, this.2.1.out⟩

/-- **C53 (negation: the clear-sky filter cannot be disabled).** Without an entry 'clearsky_filter' no filtering
of a clear-sky analysis succeeds, whatever the data. -/
theorem C53_clearsky_disable_refuted (env : Env Loc ρ σ) (energy : Series) (s : TA Loc ρ σ)
    (h : s.params.items.get? "clearsky_filter" = none) :
    ∀ s', filter env energy .clearsky s ≠ (.ok (), s') := by
  intro s' hs
  obtain ⟨_, _, _, -, -, -, -, -, -, -, h9, -⟩ := filter_ok hs
  exact h9 rfl h

/-- the filters of the aggregated series -/
inductive Spec.AppliedAgg (env : Env Loc ρ σ) (d : FilterDict FVal) (agg insol : Series) : Except PyErr BMask → Prop
  | twoWay {kw} : d.items.get? "two_way_window_filter" = some (.kwargs kw) → AppliedAgg env d agg insol (env.twoWayF kw agg)
  | insolation {kw} : d.items.get? "insolation_filter" = some (.kwargs kw) → AppliedAgg env d agg insol (env.insolationF kw insol)
  | hampel {kw} : d.items.get? "hampel_filter" = some (.kwargs kw) → AppliedAgg env d agg insol (env.hampelF kw agg)
  | tukey {kw} : d.items.get? "directional_tukey_filter" = some (.kwargs kw) → AppliedAgg env d agg insol (env.tukeyF kw agg)

/-- **C53 (aggregated filters).** The same conjunction for the filters of the aggregated series. -/
theorem C53_aggregated {env : Env Loc ρ σ} {agg insol : Series} {c : Case} {s s' : TA Loc ρ σ}
    (hin : (s.out c).insolation = some insol) (h : aggregatedFilter env agg c s = (.ok (), s')) :
    ∃ mask, (s'.out c).maskAgg = some mask ∧ ∀ t, verdictAt mask t = true ↔
      t ∈ agg.map Prod.fst ∧
      (∀ r, Spec.AppliedAgg env s.paramsAgg agg insol r → ∃ m, r = .ok m ∧ verdictAt m t = true) ∧
      Spec.AdHocAccepts s.paramsAgg t := by
  unfold aggregatedFilter at h
  replace h := bind_ok.mp h
  obtain ⟨_, _, h0, h⟩ := h
  cases h0
  replace h := bind_ok.mp h
  obtain ⟨ins, s1, h1, h⟩ := h
  obtain ⟨e, rfl⟩ := attr_ok h1
  rw [hin] at e
  cases e
  replace h := bind_ok.mp h
  obtain ⟨l1, s3, h1, h⟩ := h
  obtain ⟨rfl, c1⟩ := component_ok (readOnly_pure _) h1
  replace h := bind_ok.mp h
  obtain ⟨l2, s4, h2, h⟩ := h
  obtain ⟨rfl, c2⟩ := component_ok (readOnly_pure _) h2
  replace h := bind_ok.mp h
  obtain ⟨l3, s5, h3, h⟩ := h
  obtain ⟨rfl, c3⟩ := component_ok (readOnly_pure _) h3
  replace h := bind_ok.mp h
  obtain ⟨l4, s6, h4, h⟩ := h
  obtain ⟨rfl, c4⟩ := component_ok (readOnly_pure _) h4
  replace h := bind_ok.mp h
  obtain ⟨l5, s7, h5, h⟩ := h
  rw [assign_run, Prod.mk.injEq] at h
  refine ⟨_, by rw [← h.2, out_modifyOut], fun t => ?_⟩
  have hidx : ∀ t ∈ agg.map Prod.fst, t ∈ unionIndex (defaultMask agg :: (l1 ++ l2 ++ l3 ++ l4).map Prod.snd) := by
    intro t ht
    rw [mem_unionIndex]
    refine ⟨defaultMask agg, by simp, ?_⟩
    simpa [defaultMask, List.map_map, Function.comp] using ht
  rw [verdictAt_allTrue (fun t ht => hidx t (by simpa [defaultMask, List.map_map, Function.comp] using ht)),
    verdictAt_default]
  have one : ∀ {l : List (String × BMask)} {o : Option FVal} {name : String} {x : Series} {f : String → Series → Except PyErr BMask},
      ((o = none ∧ l = []) ∨ ∃ kw y m, o = some (.kwargs kw) ∧ (pure x : M Loc ρ σ _) s6 = (.ok y, s6) ∧ f kw y = .ok m ∧ l = [(name, m)]) →
      ((∀ z ∈ l, verdictAt z.2 t = true) ↔ ∀ kw, o = some (.kwargs kw) → ∃ m, f kw x = .ok m ∧ verdictAt m t = true) := by
    rintro l o name x f (⟨rfl, rfl⟩ | ⟨kw, y, m, rfl, hy, hf, rfl⟩)
    · simp
    · cases hy
      simp only [List.mem_singleton, forall_eq, Option.some.injEq, FVal.kwargs.injEq, forall_eq', hf, Except.ok.injEq,
        exists_eq_left']
  simp only [List.mem_append, or_imp, forall_and]
  rw [one c1, one c2, one c3, one c4]
  constructor
  · rintro ⟨ht, ⟨⟨⟨h1, h2⟩, h3⟩, h4⟩, h6⟩
    refine ⟨ht, fun r hr => ?_, (adHoc_accepts h5 (hidx t ht)).mp h6⟩
    cases hr with
    | twoWay hg => exact h1 _ hg
    | insolation hg => exact h2 _ hg
    | hampel hg => exact h3 _ hg
    | tukey hg => exact h4 _ hg
  · rintro ⟨ht, hap, had⟩
    exact ⟨ht, ⟨⟨⟨fun kw hg => hap _ (.twoWay hg), fun kw hg => hap _ (.insolation hg)⟩,
      fun kw hg => hap _ (.hampel hg)⟩, fun kw hg => hap _ (.tukey hg)⟩, (adHoc_accepts h5 (hidx t ht)).mpr had⟩

/-! ## C54 -/

/-- a filtering that fails has changed nothing -/
theorem filter_error {env : Env Loc ρ σ} {energy : Series} {c : Case} {s s' : TA Loc ρ σ} {e : PyErr}
    (h : filter env energy c s = (.error e, s')) : s' = s := by
  have key : ∀ {α : Type} {m : M Loc ρ σ α} {f : α → M Loc ρ σ Unit}, ReadOnly m → (m >>= f) s = (.error e, s') →
      s' = s ∨ ∃ a, f a s = (.error e, s') := by
    intro α m f hm hh
    rw [bind_run] at hh
    have e1 := hm s
    cases h1 : m s with
    | mk r u =>
      rw [h1] at hh e1
      simp only at e1
      subst e1
      cases r with
      | error e' => cases hh; exact .inl rfl
      | ok a => exact .inr ⟨a, hh⟩
  unfold filter at h
  rcases key readOnly_self h with h' | ⟨_, h⟩
  · exact h'
  rcases key (readOnly_casePoa _ _) h with h' | ⟨_, h⟩
  · exact h'
  rcases key (readOnly_caseTcell _ _) h with h' | ⟨_, h⟩
  · exact h'
  rcases key (readOnly_component _ _ (readOnly_pure _) _) h with h' | ⟨_, h⟩
  · exact h'
  rcases key (readOnly_component _ _ (readOnly_required _) _) h with h' | ⟨_, h⟩
  · exact h'
  rcases key (readOnly_component _ _ (readOnly_required _) _) h with h' | ⟨_, h⟩
  · exact h'
  rcases key (readOnly_component _ _ (readOnly_required _) _) h with h' | ⟨_, h⟩
  · exact h'
  rcases key (readOnly_component _ _ (readOnly_hourAngleLocation _) _) h with h' | ⟨_, h⟩
  · exact h'
  rcases key (readOnly_caseClearsky _ _) h with h' | ⟨_, h⟩
  · exact h'
  rcases key (readOnly_sensorClearsky _ _) h with h' | ⟨_, h⟩
  · exact h'
  rw [bind_run] at h
  cases hg : s.params.items.get? "ad_hoc_filter" with
  | none =>
    unfold adHoc at h
    rw [bind_run_ok (self_run s), hg] at h
    cases h
  | some v =>
    unfold adHoc at h
    rw [bind_run_ok (self_run s), hg] at h
    cases v with
    | kwargs k => cases h; rfl
    | none => cases h
    | mask m => cases h

/-- **C54 (missing input).** If an enabled filter lacks an input the filtering fails and changes nothing. -/
theorem C54_missing (env : Env Loc ρ σ) (energy : Series) {c : Case} {s : TA Loc ρ σ} (h : Spec.MissingInput s c) :
    ∃ e, filter env energy c s = (.error e, s) := by
  cases hf : filter env energy c s with
  | mk r s' =>
    cases r with
    | error e => exact ⟨e, by rw [filter_error hf]⟩
    | ok a =>
      obtain ⟨_, _, _, -, -, -, -, -, -, h7, -⟩ := filter_ok hf
      exact absurd h h7

/-- no failure other than a missing input can occur: the filter functions do not fail, every filter is given by
keyword arguments, the ad hoc filter is None or a Series, and for a clear-sky analysis `set_clearsky` was called
and 'clearsky_filter' is enabled; the location, where there is one, is not None -/
structure Spec.Benign (env : Env Loc ρ σ) (s : TA Loc ρ σ) (c : Case) : Prop where
  f1 : ∀ kw x, ∃ m, env.normalizedF kw x = .ok m
  f2 : ∀ kw x, ∃ m, env.poaF kw x = .ok m
  f3 : ∀ kw x, ∃ m, env.tcellF kw x = .ok m
  f4 : ∀ kw x, ∃ m, env.clipF kw x = .ok m
  f5 : ∀ kw x loc, ∃ m, env.hourAngleF kw x loc = .ok m
  f6 : ∀ kw x y, ∃ m, env.clearskyF kw x y = .ok m
  kwargs : ∀ k v, s.params.items.get? k = some v → k ≠ "ad_hoc_filter" → ∃ kw, v = .kwargs kw
  adhoc : ∀ kw, s.params.items.get? "ad_hoc_filter" ≠ some (.kwargs kw)
  cs : s.poaCs ≠ none
  tcs : c = .clearsky → s.tcellCs ≠ none
  csFilter : c = .clearsky → s.params.items.get? "clearsky_filter" ≠ none
  location : s.location ≠ some none

/-- **C54 (kind of error).** A missing input is reported as ValueError, if nothing else is wrong. Missing: a location
explicitly given as None is reported as AttributeError (`C54_location_none_refuted`). -/
theorem C54_value_error_partial {env : Env Loc ρ σ} (energy : Series) {c : Case} {s : TA Loc ρ σ}
    (hb : Spec.Benign env s c) (h : Spec.MissingInput s c) :
    filter env energy c s = (.error .valueError, s) := by
  obtain ⟨e, he⟩ := C54_missing env energy h
  rw [he]
  suffices hs : e = .valueError by rw [hs]
  have key : ∀ {α : Type} {m : M Loc ρ σ α} {f : α → M Loc ρ σ Unit}, ReadOnly m →
      ((m s).1 = .error .valueError ∨ ∃ a, (m s).1 = .ok a) → (m >>= f) s = (.error e, s) →
      e = .valueError ∨ ∃ a, m s = (.ok a, s) ∧ f a s = (.error e, s) := by
    intro α m f hm hv hh
    rw [bind_run] at hh
    have e1 := hm s
    cases h1 : m s with
    | mk r u =>
      rw [h1] at hh e1 hv
      simp only at e1
      subst e1
      cases r with
      | error e' =>
        cases hh
        rcases hv with hv | ⟨a, hv⟩
        · cases hv; exact .inl rfl
        · cases hv
      | ok a => exact .inr ⟨a, rfl, hh⟩
  have req : ∀ {α : Type} (o : Option α), ((required o : M Loc ρ σ α) s).1 = .error .valueError ∨
      ∃ a, ((required o : M Loc ρ σ α) s).1 = .ok a := by
    intro α o
    cases o with
    | none => exact .inl rfl
    | some a => exact .inr ⟨a, rfl⟩
  have comp : ∀ {α : Type} (name : String) (input : M Loc ρ σ α) (f : String → α → Except PyErr BMask),
      name ≠ "ad_hoc_filter" → ReadOnly input →
      ((input s).1 = .error .valueError ∨ ∃ a, (input s).1 = .ok a) → (∀ kw x, ∃ m, f kw x = .ok m) →
      ((component s.params name input f s).1 = .error .valueError ∨
        ∃ a, (component s.params name input f s).1 = .ok a) := by
    intro α name input f hn hro hi hf
    unfold component
    cases hg : s.params.items.get? name with
    | none => exact .inr ⟨[], rfl⟩
    | some v =>
      obtain ⟨kw, rfl⟩ := hb.kwargs name v hg hn
      have e1 := hro s
      show ((input >>= fun x => _ : M Loc ρ σ _) s).1 = _ ∨ ∃ a, ((input >>= fun x => _ : M Loc ρ σ _) s).1 = _
      cases h1 : input s with
      | mk r u =>
        rw [h1] at e1 hi
        simp only at e1 hi
        subst e1
        cases r with
        | error e' =>
          rcases hi with hi | ⟨a, hi⟩
          · rw [Except.error.injEq] at hi
            subst hi
            exact .inl (by rw [bind_run_error h1])
          · cases hi
        | ok x =>
          obtain ⟨m, hm⟩ := hf kw x
          refine .inr ⟨[(name, m)], ?_⟩
          rw [bind_run_ok h1]
          show ((call (f kw x) >>= _ : M Loc ρ σ _) u).1 = _
          rw [hm]; rfl
  have csk : ∀ name : String, name ≠ "ad_hoc_filter" → s.params.items.get? name ≠ none →
      ((clearskyComponent env name s).1 = .error .valueError ∨ ∃ a, (clearskyComponent env name s).1 = .ok a) := by
    intro name hn hg
    unfold clearskyComponent
    rw [bind_run_ok (self_run s)]
    cases hp : s.poa with
    | none => exact .inl rfl
    | some p =>
      rw [bind_run_ok (show (required (some p) : M Loc ρ σ _) s = (.ok p, s) from rfl)]
      cases hc : s.poaCs with
      | none => exact absurd hc hb.cs
      | some cs =>
        rw [bind_run_ok (show (attr (some cs) : M Loc ρ σ _) s = (.ok cs, s) from rfl)]
        cases cs with
        | none => exact .inl rfl
        | some p' =>
          rw [bind_run_ok (show (required (some p') : M Loc ρ σ _) s = (.ok p', s) from rfl)]
          cases hv : s.params.items.get? name with
          | none => exact absurd hv hg
          | some v =>
            obtain ⟨kw, rfl⟩ := hb.kwargs name v hv hn
            obtain ⟨m, hm⟩ := hb.f6 kw p p'
            refine .inr ⟨[(name, m)], ?_⟩
            show ((call (env.clearskyF kw p p') >>= _ : M Loc ρ σ _) s).1 = _
            rw [hm]; rfl
  unfold filter at he
  rw [bind_run_ok (self_run s)] at he
  have k1 : ((casePoa s c s).1 = .error .valueError ∨ ∃ a, (casePoa s c s).1 = .ok a) := by
    cases c with
    | sensor => exact .inr ⟨_, rfl⟩
    | clearsky =>
      cases hc : s.poaCs with
      | none => exact absurd hc hb.cs
      | some cs => exact .inr ⟨cs, by unfold casePoa; rw [hc]; rfl⟩
  have k2 : ((caseTcell s c s).1 = .error .valueError ∨ ∃ a, (caseTcell s c s).1 = .ok a) := by
    cases c with
    | sensor => exact .inr ⟨_, rfl⟩
    | clearsky =>
      cases hc : s.tcellCs with
      | none => exact absurd hc (hb.tcs rfl)
      | some cs => exact .inr ⟨cs, by unfold caseTcell; rw [hc]; rfl⟩
  rcases key (readOnly_casePoa _ _) k1 he with h' | ⟨poa, -, he⟩
  · exact h'
  rcases key (readOnly_caseTcell _ _) k2 he with h' | ⟨tcell, -, he⟩
  · exact h'
  rcases key (readOnly_component _ _ (readOnly_pure _) _)
    (comp _ _ _ (by decide) (readOnly_pure _) (.inr ⟨energy, rfl⟩) hb.f1) he with h' | ⟨_, -, he⟩
  · exact h'
  rcases key (readOnly_component _ _ (readOnly_required _) _)
    (comp _ _ _ (by decide) (readOnly_required _) (req _) hb.f2) he with h' | ⟨_, -, he⟩
  · exact h'
  rcases key (readOnly_component _ _ (readOnly_required _) _)
    (comp _ _ _ (by decide) (readOnly_required _) (req _) hb.f3) he with h' | ⟨_, -, he⟩
  · exact h'
  rcases key (readOnly_component _ _ (readOnly_required _) _)
    (comp _ _ _ (by decide) (readOnly_required _) (req _) hb.f4) he with h' | ⟨_, -, he⟩
  · exact h'
  have k5 : ((hourAngleLocation s s).1 = .error .valueError ∨ ∃ a, (hourAngleLocation s s).1 = .ok a) := by
    unfold hourAngleLocation
    cases hl : s.location with
    | none => exact .inl rfl
    | some l =>
      cases l with
      | none => exact absurd hl hb.location
      | some loc => exact .inr ⟨loc, rfl⟩
  rcases key (readOnly_component _ _ (readOnly_hourAngleLocation _) _)
    (comp _ _ _ (by decide) (readOnly_hourAngleLocation _) k5 (fun kw x => hb.f5 kw energy x)) he with h' | ⟨_, -, he⟩
  · exact h'
  have k6 : ((caseClearsky env c s).1 = .error .valueError ∨ ∃ a, (caseClearsky env c s).1 = .ok a) := by
    cases c with
    | sensor => exact .inr ⟨_, rfl⟩
    | clearsky => exact csk _ (by decide) (hb.csFilter rfl)
  rcases key (readOnly_caseClearsky _ _) k6 he with h' | ⟨_, -, he⟩
  · exact h'
  have k7 : ((sensorClearsky env s.params s).1 = .error .valueError ∨ ∃ a, (sensorClearsky env s.params s).1 = .ok a) := by
    unfold sensorClearsky Dict.has
    cases hg : s.params.items.get? "sensor_clearsky_filter" with
    | none => exact .inr ⟨_, rfl⟩
    | some v => exact csk _ (by decide) (by rw [hg]; simp)
  rcases key (readOnly_sensorClearsky _ _) k7 he with h' | ⟨_, -, he⟩
  · exact h'
  exfalso
  unfold adHoc at he
  rw [bind_run, bind_run_ok (self_run s)] at he
  cases hg : s.params.items.get? "ad_hoc_filter" with
  | none => rw [hg] at he; cases he
  | some v =>
    rw [hg] at he
    cases v with
    | kwargs k => exact hb.adhoc k hg
    | none => cases he
    | mask m => cases he

/-- **C54 (no irradiance).** -/
theorem C54_no_irradiance (env : Env Loc ρ σ) (s : TA Loc ρ σ) (h : s.poa = none) (analyses : List String)
    (yoyKw srrKw : String) : analysis env .sensor analyses yoyKw srrKw s = (.error .valueError, s) := by
  unfold analysis
  refine bind_run_error ?_
  show sensorPreprocess env s = _
  unfold sensorPreprocess
  rw [bind_run_ok (self_run s), h]
  rfl

/-- **C54 (no temperature).** -/
theorem C54_no_temperature (env : Env Loc ρ σ) (s : TA Loc ρ σ) {p : Series} (hp : s.poa = some p)
    (he : s.powerExpected = none) (h1 : s.tcell = none) (h2 : s.tamb = none)
    (hf : s.params.items.get? "sensor_clearsky_filter" = none) (analyses : List String)
    (yoyKw srrKw : String) : analysis env .sensor analyses yoyKw srrKw s = (.error .valueError, s) := by
  unfold analysis
  refine bind_run_error ?_
  show sensorPreprocess env s = _
  unfold sensorPreprocess
  rw [bind_run_ok (self_run s), hp]
  rw [bind_run_ok (show (required (some p) : M Loc ρ σ _) s = (.ok p, s) from rfl)]
  rw [bind_run_ok (show sensorClearskyPoa env s s = (.ok ⟨⟩, s) by unfold sensorClearskyPoa Dict.has; rw [hf]; rfl)]
  refine bind_run_error ?_
  unfold sensorNormalize
  rw [he]
  refine bind_run_error ?_
  unfold sensorTcell
  rw [h1, h2]
  rfl

/-- **C54 (clear-sky analysis before `set_clearsky`).** -/
theorem C54_no_clearsky (env : Env Loc ρ σ) (s : TA Loc ρ σ) (h : s.poaCs = none) (analyses : List String)
    (yoyKw srrKw : String) : analysis env .clearsky analyses yoyKw srrKw s = (.error .attributeError, s) := by
  unfold analysis
  refine bind_run_error ?_
  show clearskyPreprocess env s = _
  unfold clearskyPreprocess
  refine bind_run_error ?_
  unfold ensureClearskyPoa
  rw [bind_run_ok (self_run s), h]
  rfl

/-- **C54 (clear-sky irradiance to be modelled).** A clear-sky analysis that has to model the clear-sky irradiance fails without any
change if a prerequisite is missing: with AttributeError without measured irradiance or with a location that is None, with ValueError
without a location or without tilt and azimuth. -/
theorem C54_no_model (env : Env Loc ρ σ) (s : TA Loc ρ σ) (h : s.poaCs = some none) (analyses : List String)
    (yoyKw srrKw : String) :
    (s.poa = none → analysis env .clearsky analyses yoyKw srrKw s = (.error .attributeError, s)) ∧
    (s.poa.isSome → s.location = none → analysis env .clearsky analyses yoyKw srrKw s = (.error .valueError, s)) ∧
    (s.poa.isSome → s.location.isSome → s.tilt = false →
      analysis env .clearsky analyses yoyKw srrKw s = (.error .valueError, s)) ∧
    (s.poa.isSome → s.location = some none → s.tilt = true →
      analysis env .clearsky analyses yoyKw srrKw s = (.error .attributeError, s)) := by
  have key : ∀ e, calcClearskyPoa env s s = (.error e, s) → analysis env .clearsky analyses yoyKw srrKw s = (.error e, s) := by
    intro e he
    unfold analysis
    refine bind_run_error ?_
    show clearskyPreprocess env s = _
    unfold clearskyPreprocess
    refine bind_run_error ?_
    unfold ensureClearskyPoa
    rw [bind_run_ok (self_run s), h]
    exact he
  refine ⟨fun h1 => key _ ?_, fun h1 h2 => key _ ?_, fun h1 h2 h3 => key _ ?_, fun h1 h2 h3 => key _ ?_⟩
  · unfold calcClearskyPoa; rw [h1]; rfl
  · obtain ⟨p, hp⟩ := Option.isSome_iff_exists.mp h1
    unfold calcClearskyPoa; rw [hp, h2]; rfl
  · obtain ⟨p, hp⟩ := Option.isSome_iff_exists.mp h1
    obtain ⟨l, hl⟩ := Option.isSome_iff_exists.mp h2
    unfold calcClearskyPoa; rw [hp, hl, h3]; rfl
  · obtain ⟨p, hp⟩ := Option.isSome_iff_exists.mp h1
    unfold calcClearskyPoa; rw [hp, h2, h3]; rfl

/-! ## a concrete object -/

/-- simple filter functions: positive values pass; the clear-sky filter compares the two irradiances -/
def exEnv : Env Unit Nat Nat where
  normalizedF _ x := .ok (x.map fun r => (r.1, decide (0 < r.2.getD 0)))
  poaF _ x := .ok (x.map fun r => (r.1, decide (200 < r.2.getD 0)))
  tcellF _ x := .ok (x.map fun r => (r.1, decide (r.2.getD 0 < 110)))
  clipF _ x := .ok (x.map fun r => (r.1, decide (r.2.getD 0 < 1000)))
  hourAngleF _ x _ := .ok (x.map fun r => (r.1, true))
  clearskyF _ x y := .ok (x.zipWith (fun r q => (r.1, decide (r.2 = q.2))) y)
  twoWayF _ x := .ok (x.map fun r => (r.1, true))
  insolationF _ x := .ok (x.map fun r => (r.1, decide (0 < r.2.getD 0)))
  hampelF _ x := .ok (x.map fun r => (r.1, true))
  tukeyF _ x := .ok (x.map fun r => (r.1, true))
  interpolate x := .ok x
  clearskyPoa _ x := .ok x
  clearskyTamb _ x := .ok (x.map fun r => (r.1, some 25))
  cellTemp x _ _ := .ok (x.map fun r => (r.1, some 30))
  pvwattsNorm e x _ := .ok (e, x)
  expectedNorm e _ x := .ok (e, x)
  aggregate e x := .ok (e, x)
  asfreq x := x
  yoy _ x := .ok x.length
  srr _ x _ := .ok x.length

/-- an object with power, irradiance and ambient temperature, four rows two years apart -/
def exTA : TA Unit Nat Nat :=
  init (some [(0, some 10), (1, some 2000), (2, some 30), (800 * dayNs, some 40)])
    [(0, some 1), (1, some 1), (2, some 1), (800 * dayNs, some 1)]
    (some [(0, some 500), (1, some 500), (2, some 100), (800 * dayNs, some 600)])
    (some [(0, some 20), (1, some 20), (2, some 20), (800 * dayNs, some 20)]) none none true

/-- the sensor filtering keeps the first and last row: the second is clipped, the third too dark -/
example : ((filter exEnv exTA.pvEnergy .sensor exTA).2.sensor.mask) =
    some [(0, true), (1, false), (2, false), (800 * dayNs, true)] := by decide +kernel

/-- and it stores columns that all have the timestamps of that mask -/
example : ((filter exEnv exTA.pvEnergy .sensor exTA).2.sensor.components).map
      (fun l => (l.length, l.all fun x => x.2.map Prod.fst == [0, 1, 2, 800 * dayNs])) = some (4, true) := by decide +kernel

/-- no power: the clip filter fails -/
example : Spec.MissingInput { exTA with pvPower := none } .sensor := .power (by decide) rfl

example : (filter exEnv exTA.pvEnergy .sensor { exTA with pvPower := none }).1 = .error .valueError := by
  decide +kernel

/-- **C54 (negation).** With `set_clearsky` called without a location, the hour angle filter fails with
AttributeError, not with the documented ValueError. -/
theorem C54_location_none_refuted :
    let s : TA Unit Nat Nat := { exTA with location := some none,
                                           params := ⟨validFilterParams, [("hour_angle_filter", .kwargs "")]⟩ }
    (filter exEnv exTA.pvEnergy .sensor s).1 = .error .attributeError := by decide +kernel

/-- disabling the clear-sky filter -/
example : (filter exEnv exTA.pvEnergy .clearsky { exTA with poaCs := some exTA.poa, tcellCs := some none,
                                                            params := ⟨validFilterParams, []⟩ }).1 = .error .keyError := by
  decide +kernel

/-- **C53 (stored components, aggregated).** The same for the filters of the aggregated series. -/
theorem C53_components_aggregated {env : Env Loc ρ σ} {agg insol : Series} {c : Case} {s s' : TA Loc ρ σ}
    (hin : (s.out c).insolation = some insol) (h : aggregatedFilter env agg c s = (.ok (), s')) :
    ∃ mask comps, (s'.out c).maskAgg = some mask ∧ (s'.out c).componentsAgg = some comps ∧
      (∀ t ∈ agg.map Prod.fst, t ∈ mask.map Prod.fst) ∧
      (∀ x ∈ comps, x.2.map Prod.fst = mask.map Prod.fst) ∧
      (∀ r, Spec.AppliedAgg env s.paramsAgg agg insol r →
        ∃ m x, r = .ok m ∧ x ∈ comps ∧ ∀ t, verdictAt x.2 t = verdictAt m t) ∧
      ∀ t ∈ mask.map Prod.fst, verdictAt mask t = true ↔ t ∈ agg.map Prod.fst ∧ ∀ x ∈ comps, verdictAt x.2 t = true := by
  unfold aggregatedFilter at h
  replace h := bind_ok.mp h
  obtain ⟨_, _, h0, h⟩ := h
  cases h0
  replace h := bind_ok.mp h
  obtain ⟨ins, s1, h1, h⟩ := h
  obtain ⟨e, rfl⟩ := attr_ok h1
  rw [hin] at e
  cases e
  replace h := bind_ok.mp h
  obtain ⟨l1, s3, h1, h⟩ := h
  obtain ⟨rfl, c1⟩ := component_ok (readOnly_pure _) h1
  replace h := bind_ok.mp h
  obtain ⟨l2, s4, h2, h⟩ := h
  obtain ⟨rfl, c2⟩ := component_ok (readOnly_pure _) h2
  replace h := bind_ok.mp h
  obtain ⟨l3, s5, h3, h⟩ := h
  obtain ⟨rfl, c3⟩ := component_ok (readOnly_pure _) h3
  replace h := bind_ok.mp h
  obtain ⟨l4, s6, h4, h⟩ := h
  obtain ⟨rfl, c4⟩ := component_ok (readOnly_pure _) h4
  replace h := bind_ok.mp h
  obtain ⟨l5, s7, h5, h⟩ := h
  rw [assign_run, Prod.mk.injEq] at h
  generalize hidx : unionIndex (defaultMask agg :: (l1 ++ l2 ++ l3 ++ l4).map Prod.snd) = idx at *
  have hfst : (allTrue idx (defaultMask agg) (l1 ++ l2 ++ l3 ++ l4 ++ l5)).map Prod.fst = idx := by
    simp [allTrue, List.map_map, Function.comp_def]
  have hcol : ∀ (m : BMask) (t : Int), verdictAt (idx.map fun t => (t, verdictAt m t)) t = true ↔ t ∈ idx ∧ verdictAt m t = true :=
    fun m t => verdictAt_map ..
  have hmem : ∀ x ∈ l1 ++ l2 ++ l3 ++ l4, ∃ y ∈ aligned idx (l1 ++ l2 ++ l3 ++ l4 ++ l5), ∀ t, verdictAt y.2 t = verdictAt x.2 t := by
    intro x hx
    refine ⟨_, List.mem_map.mpr ⟨x, List.mem_append_left _ hx, rfl⟩, fun t => ?_⟩
    refine verdict_eq ((hcol _ t).trans ⟨fun h => h.2, fun h => ⟨?_, h⟩⟩)
    rw [← hidx, mem_unionIndex]
    exact ⟨x.2, by simp only [List.mem_cons, List.mem_map]; exact .inr ⟨x, hx, rfl⟩, verdictAt_mem h⟩
  have one : ∀ {l : List (String × BMask)} {o : Option FVal} {name : String} {x : Series} {f : String → Series → Except PyErr BMask},
      ((o = none ∧ l = []) ∨ ∃ kw y m, o = some (.kwargs kw) ∧ (pure x : M Loc ρ σ _) s6 = (.ok y, s6) ∧ f kw y = .ok m ∧ l = [(name, m)]) →
      (∀ z ∈ l, z ∈ l1 ++ l2 ++ l3 ++ l4) → ∀ kw, o = some (.kwargs kw) →
        ∃ m z, f kw x = .ok m ∧ z ∈ aligned idx (l1 ++ l2 ++ l3 ++ l4 ++ l5) ∧ ∀ t, verdictAt z.2 t = verdictAt m t := by
    rintro l o name x f (⟨rfl, rfl⟩ | ⟨kw, y, m, rfl, hy, hf, rfl⟩) hsub kw' hkw
    · cases hkw
    · cases hy
      cases hkw
      obtain ⟨z, hz, hv⟩ := hmem (name, m) (hsub _ (by simp))
      exact ⟨m, z, hf, hz, hv⟩
  refine ⟨_, _, by rw [← h.2, out_modifyOut], by rw [← h.2, out_modifyOut], ?_, ?_, ?_, ?_⟩
  · intro t ht
    rw [hfst, ← hidx, mem_unionIndex]
    refine ⟨defaultMask agg, by simp, ?_⟩
    simpa [defaultMask, List.map_map, Function.comp] using ht
  · intro x hx
    unfold aligned at hx
    obtain ⟨y, -, rfl⟩ := List.mem_map.mp hx
    rw [hfst]
    simp [List.map_map, Function.comp_def]
  · intro r hr
    cases hr with
    | twoWay hg => exact one c1 (fun z hz => by simp [hz]) _ hg
    | insolation hg => exact one c2 (fun z hz => by simp [hz]) _ hg
    | hampel hg => exact one c3 (fun z hz => by simp [hz]) _ hg
    | tukey hg => exact one c4 (fun z hz => by simp [hz]) _ hg
  · intro t ht
    rw [hfst] at ht
    rw [verdictAt_allTrue (fun t ht => by rw [← hidx, mem_unionIndex]; exact ⟨_, by simp, ht⟩), verdictAt_default]
    refine and_congr_right fun _ => ?_
    constructor
    · intro hv x hx
      unfold aligned at hx
      obtain ⟨y, hy, rfl⟩ := List.mem_map.mp hx
      exact (hcol _ t).mpr ⟨ht, hv y hy⟩
    · intro hv y hy
      exact ((hcol _ t).mp (hv _ (List.mem_map.mpr ⟨y, hy, rfl⟩))).2

/-- **C53 (negation: 'sensor_clearsky_filter' in a clear-sky analysis).** The documentation restricts this filter
to sensor analyses; enabled, it takes part in clear-sky analyses as well. -/
theorem C53_sensor_clearsky_refuted :
    let env : Env Unit Nat Nat := { exEnv with clearskyF := fun kw x _ => .ok (x.map fun r => (r.1, decide (kw = ""))) }
    let s : TA Unit Nat Nat := { exTA with poaCs := some exTA.poa, tcellCs := some none,
                                           params := ⟨validFilterParams, [("clearsky_filter", .kwargs "")]⟩ }
    let s₂ := { s with params := ⟨validFilterParams, [("clearsky_filter", .kwargs ""), ("sensor_clearsky_filter", .kwargs "x")]⟩ }
    (filter env exTA.pvEnergy .clearsky s).2.clearsky.mask.map (fun m => m.map Prod.snd) = some [true, true, true, true] ∧
    (filter env exTA.pvEnergy .clearsky s₂).2.clearsky.mask.map (fun m => m.map Prod.snd) =
      some [false, false, false, false] := by decide +kernel

/-- the ad hoc filter: False and missing values reject, missing timestamps accept -/
example : ((filter exEnv exTA.pvEnergy .sensor { exTA with params := ⟨validFilterParams,
      [("ad_hoc_filter", .mask [(0, none), (1, some true), (2, some false)])]⟩ }).2.sensor.mask) =
    some [(0, false), (1, true), (2, false), (800 * dayNs, true)] := by decide +kernel

-- a location without tilt: both attributes set by hand
example : (analysis exEnv .clearsky ["yoy_degradation"] "" "" { exTA with poaCs := some none, location := some (some ()), tilt := false }).1 =
      .error .valueError ∧
    (analysis exEnv .clearsky ["yoy_degradation"] "" "" { exTA with poaCs := some none, location := some none, tilt := true }).1 =
      .error .attributeError := by
  refine ⟨?_, ?_⟩ <;> decide +kernel

end Verif.Chains
