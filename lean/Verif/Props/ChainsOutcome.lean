import Verif.Props.ChainsAccepted
import Verif.Lemmas.ChainsSoiling
import Verif.Props.Normalize
import Verif.Props.ClipLogic

/-! # C136: when the preprocessing of an analysis succeeds -/

namespace Verif.Chains
open Verif.Spec
variable {Loc ρ σ : Type}

/-- Everything the filters of case `c` need is there: every enabled filter is given by keyword arguments, has its inputs, and its
function returns a mask; the user's own mask is None or a Series; in a clear-sky analysis the attribute for the clear-sky cell
temperature exists and the clear-sky filter is enabled. -/
structure Spec.FiltersRun (env : Env Loc ρ σ) (s : TA Loc ρ σ) (energy : Series) (c : Case) : Prop where
  runs : ∀ name ∈ Spec.names c, s.params.items.get? name ≠ none → ∃ m, Spec.Applied env s energy c name (.ok m)
  own : ∀ kw, s.params.items.get? "ad_hoc_filter" ≠ some (.kwargs kw)
  temperature : c = .clearsky → s.tcellCs ≠ none
  clearsky : c = .clearsky → s.params.items.get? "clearsky_filter" ≠ none

theorem applied_cases {env : Env Loc ρ σ} {s : TA Loc ρ σ} {energy : Series} {c : Case} {name : String} {r : Except PyErr BMask}
    (h : Spec.Applied env s energy c name r) :
    ∃ kw, s.params.items.get? name = some (.kwargs kw) ∧
      ((name = "normalized_filter" ∧ r = env.normalizedF kw energy) ∨
      (name = "poa_filter" ∧ ∃ p, (c = .sensor ∧ s.poa = some p ∨ c = .clearsky ∧ s.poaCs = some (some p)) ∧ r = env.poaF kw p) ∨
      (name = "tcell_filter" ∧ ∃ p, (c = .sensor ∧ s.tcell = some p ∨ c = .clearsky ∧ s.tcellCs = some (some p)) ∧
        r = env.tcellF kw p) ∨
      (name = "clip_filter" ∧ ∃ p, s.pvPower = some p ∧ r = env.clipF kw p) ∨
      (name = "hour_angle_filter" ∧ ∃ l, s.location = some (some l) ∧ r = env.hourAngleF kw energy l) ∨
      ((name = "clearsky_filter" ∧ c = .clearsky ∨ name = "sensor_clearsky_filter") ∧
        ∃ p q, s.poa = some p ∧ s.poaCs = some (some q) ∧ r = env.clearskyF kw p q)) := by
  cases h with
  | normalized h => exact ⟨_, h, .inl ⟨rfl, rfl⟩⟩
  | poaSensor h h1 => exact ⟨_, h, .inr (.inl ⟨rfl, _, .inl ⟨rfl, h1⟩, rfl⟩)⟩
  | poaClearsky h h1 => exact ⟨_, h, .inr (.inl ⟨rfl, _, .inr ⟨rfl, h1⟩, rfl⟩)⟩
  | tcellSensor h h1 => exact ⟨_, h, .inr (.inr (.inl ⟨rfl, _, .inl ⟨rfl, h1⟩, rfl⟩))⟩
  | tcellClearsky h h1 => exact ⟨_, h, .inr (.inr (.inl ⟨rfl, _, .inr ⟨rfl, h1⟩, rfl⟩))⟩
  | clip h h1 => exact ⟨_, h, .inr (.inr (.inr (.inl ⟨rfl, _, h1, rfl⟩)))⟩
  | hourAngle h h1 => exact ⟨_, h, .inr (.inr (.inr (.inr (.inl ⟨rfl, _, h1, rfl⟩))))⟩
  | clearsky h h1 h2 => exact ⟨_, h, .inr (.inr (.inr (.inr (.inr ⟨.inl ⟨rfl, rfl⟩, _, _, h1, h2, rfl⟩))))⟩
  | sensorClearsky h h1 h2 => exact ⟨_, h, .inr (.inr (.inr (.inr (.inr ⟨.inr rfl, _, _, h1, h2, rfl⟩))))⟩

theorem component_succeeds {α : Type} {d : FilterDict FVal} {name : String} {input : M Loc ρ σ α}
    {f : String → α → Except PyErr BMask} {s : TA Loc ρ σ}
    (h : ∀ v, d.items.get? name = some v → ∃ kw x m, v = .kwargs kw ∧ input s = (.ok x, s) ∧ f kw x = .ok m) :
    ∃ l, component d name input f s = (.ok l, s) := by
  unfold component
  cases hg : d.items.get? name with
  | none => exact ⟨[], rfl⟩
  | some v =>
    obtain ⟨kw, x, m, rfl, hx, hm⟩ := h v hg
    refine ⟨[(name, m)], ?_⟩
    simp only
    rw [bind_run_ok hx]
    show (call (f kw x) >>= fun m => pure [(name, m)]) s = _
    rw [hm]
    rfl

theorem adHoc_succeeds {get : TA Loc ρ σ → FilterDict FVal} {put : FilterDict FVal → TA Loc ρ σ → TA Loc ρ σ}
    {idx : List Int} {s : TA Loc ρ σ} (h : ∀ kw, (get s).items.get? "ad_hoc_filter" ≠ some (.kwargs kw)) :
    ∃ l s', adHoc get put idx s = (.ok l, s') := by
  unfold adHoc
  rw [bind_run_ok (self_run s)]
  cases hg : (get s).items.get? "ad_hoc_filter" with
  | none => exact ⟨_, _, rfl⟩
  | some v =>
    cases v with
    | none => exact ⟨_, _, rfl⟩
    | kwargs kw => exact absurd hg (h kw)
    | mask m => exact ⟨_, _, rfl⟩

theorem has_of_get {d : Dict FVal} {k : String} {v : FVal} (h : d.get? k = some v) : d.has k = true := by
  unfold Dict.has
  rw [h]
  rfl

theorem get_of_has {d : Dict FVal} {k : String} (h : d.has k = true) : ∃ v, d.get? k = some v := by
  unfold Dict.has at h
  exact Option.isSome_iff_exists.mp h

theorem clearskyComponent_succeeds {env : Env Loc ρ σ} {s : TA Loc ρ σ} {name kw : String} {p q : Series} {m : BMask}
    (h1 : s.poa = some p) (h2 : s.poaCs = some (some q)) (h3 : s.params.items.get? name = some (.kwargs kw))
    (h4 : env.clearskyF kw p q = .ok m) : clearskyComponent env name s = (.ok [(name, m)], s) := by
  unfold clearskyComponent
  rw [bind_run_ok (self_run s), h1, bind_run_ok (show (required (some p) : M Loc ρ σ _) s = (.ok p, s) from rfl), h2,
    bind_run_ok (show (attr (some (some q)) : M Loc ρ σ _) s = (.ok (some q), s) from rfl),
    bind_run_ok (show (required (some q) : M Loc ρ σ _) s = (.ok q, s) from rfl), h3]
  show (call (env.clearskyF kw p q) >>= fun m => pure [(name, m)]) s = _
  rw [h4]
  rfl

/-- **C136 (filters).** Filtering succeeds exactly if every enabled filter is given by keyword arguments, has its inputs and its
function returns a mask, the user's own mask is None or a Series, and for a clear-sky analysis the clear-sky filter is enabled. -/
theorem C136_filter (env : Env Loc ρ σ) (energy : Series) (c : Case) (s : TA Loc ρ σ) :
    (∃ s', filter env energy c s = (.ok (), s')) ↔ Spec.FiltersRun env s energy c := by
  constructor
  · rintro ⟨s', hf⟩
    obtain ⟨comps, idx, adhoc, -, h2, -, -, -, -, -, h8, h9⟩ := filter_ok hf
    refine ⟨fun name hn hv => ?_, ?_, ?_, h8⟩
    · obtain ⟨r, hr⟩ := h9 name hn hv
      obtain ⟨m, rfl, -⟩ := h2 name r hr
      exact ⟨m, hr⟩
    · intro kw hk
      unfold filter at hf
      replace hf := bind_ok.mp hf
      obtain ⟨_, s0, hx0, hf⟩ := hf
      cases hx0
      replace hf := bind_ok.mp hf
      obtain ⟨_, s1, hx1, hf⟩ := hf
      obtain ⟨rfl, -⟩ := casePoa_ok hx1
      replace hf := bind_ok.mp hf
      obtain ⟨_, s2, hx2, hf⟩ := hf
      obtain ⟨rfl, -⟩ := caseTcell_ok hx2
      replace hf := bind_ok.mp hf
      obtain ⟨_, s3, hx3, hf⟩ := hf
      obtain ⟨rfl, -⟩ := component_ok (readOnly_pure _) hx3
      replace hf := bind_ok.mp hf
      obtain ⟨_, s4, hx4, hf⟩ := hf
      obtain ⟨rfl, -⟩ := component_ok (readOnly_required _) hx4
      replace hf := bind_ok.mp hf
      obtain ⟨_, s5, hx5, hf⟩ := hf
      obtain ⟨rfl, -⟩ := component_ok (readOnly_required _) hx5
      replace hf := bind_ok.mp hf
      obtain ⟨_, s6, hx6, hf⟩ := hf
      obtain ⟨rfl, -⟩ := component_ok (readOnly_required _) hx6
      replace hf := bind_ok.mp hf
      obtain ⟨_, s7, hx7, hf⟩ := hf
      obtain ⟨rfl, -⟩ := component_ok (readOnly_bind (readOnly_required _) fun _ => readOnly_attr _) hx7
      replace hf := bind_ok.mp hf
      obtain ⟨_, s8, hx8, hf⟩ := hf
      have e8 := readOnly_caseClearsky env c s7
      rw [hx8] at e8
      obtain rfl : s8 = s7 := e8
      replace hf := bind_ok.mp hf
      obtain ⟨_, s9, hx9, hf⟩ := hf
      have e9 := readOnly_sensorClearsky env s8.params s8
      rw [hx9] at e9
      obtain rfl : s9 = s8 := e9
      replace hf := bind_ok.mp hf
      obtain ⟨_, s10, hx10, hf⟩ := hf
      rcases adHoc_ok hx10 with ⟨h | h, -⟩ | ⟨m, h, -⟩
      all_goals (rw [hk] at h; cases h)
    · rintro rfl hn
      unfold filter at hf
      obtain ⟨_, s0, h0, hf⟩ := bind_ok.mp hf
      cases h0
      obtain ⟨_, s1, h1, hf⟩ := bind_ok.mp hf
      obtain ⟨rfl, -⟩ := casePoa_ok h1
      obtain ⟨_, s2, h1, hf⟩ := bind_ok.mp hf
      unfold caseTcell at h1
      rw [hn] at h1
      cases h1
  · intro h
    have hkw : ∀ name ∈ Spec.names c, ∀ v, s.params.items.get? name = some v →
        ∃ m, Spec.Applied env s energy c name (.ok m) := fun name hn v hv => h.runs name hn (by rw [hv]; simp)
    have hmem : ∀ name ∈ ["normalized_filter", "poa_filter", "tcell_filter", "clip_filter", "hour_angle_filter",
        "sensor_clearsky_filter"], name ∈ Spec.names c := by
      intro name hn
      cases c
      · exact hn
      · simp only [List.mem_cons, List.not_mem_nil, or_false] at hn
        rcases hn with rfl | rfl | rfl | rfl | rfl | rfl <;> decide
    have hp : ∃ poa, casePoa s c s = (.ok poa, s) ∧ ∀ p, (c = .sensor ∧ s.poa = some p ∨
        c = .clearsky ∧ s.poaCs = some (some p)) → poa = some p := by
      cases c with
      | sensor => exact ⟨s.poa, rfl, by simp⟩
      | clearsky =>
        obtain ⟨v, hv⟩ := Option.ne_none_iff_exists'.mp (h.clearsky rfl)
        obtain ⟨m, hm⟩ := h.runs "clearsky_filter" (by decide) (h.clearsky rfl)
        obtain ⟨kw, -, hm⟩ := applied_cases hm
        simp only [String.reduceEq, false_and, and_self, true_or, true_and, false_or] at hm
        obtain ⟨p, q, -, hq, -⟩ := hm
        refine ⟨some q, ?_, ?_⟩
        · show (attr s.poaCs : M Loc ρ σ _) s = _
          rw [hq]; rfl
        · simp [hq]
    have ht : ∃ tc, caseTcell s c s = (.ok tc, s) ∧ ∀ p, (c = .sensor ∧ s.tcell = some p ∨
        c = .clearsky ∧ s.tcellCs = some (some p)) → tc = some p := by
      cases c with
      | sensor => exact ⟨s.tcell, rfl, by simp⟩
      | clearsky =>
        obtain ⟨v, hv⟩ := Option.ne_none_iff_exists'.mp (h.temperature rfl)
        refine ⟨v, ?_, ?_⟩
        · show (attr s.tcellCs : M Loc ρ σ _) s = _
          rw [hv]; rfl
        · simp [hv]
    obtain ⟨poa, hp1, hp2⟩ := hp
    obtain ⟨tc, ht1, ht2⟩ := ht
    have k1 : ∃ l, component s.params "normalized_filter" (pure energy) env.normalizedF s = (.ok l, s) :=
      component_succeeds fun v hv => by
        obtain ⟨m, hm⟩ := hkw _ (hmem _ (by simp)) v hv
        obtain ⟨kw, hg, hm⟩ := applied_cases hm
        simp only [String.reduceEq, false_and, true_and, or_false, false_or] at hm
        rw [hv] at hg; cases hg
        exact ⟨kw, _, m, rfl, rfl, hm.symm⟩
    have k2 : ∃ l, component s.params "poa_filter" (required poa) env.poaF s = (.ok l, s) :=
      component_succeeds fun v hv => by
        obtain ⟨m, hm⟩ := hkw _ (hmem _ (by simp)) v hv
        obtain ⟨kw, hg, hm⟩ := applied_cases hm
        simp only [String.reduceEq, false_and, true_and, or_false, false_or] at hm
        obtain ⟨p, h1, h2⟩ := hm
        rw [hv] at hg; cases hg
        rw [hp2 p h1]
        exact ⟨kw, p, m, rfl, rfl, h2.symm⟩
    have k3 : ∃ l, component s.params "tcell_filter" (required tc) env.tcellF s = (.ok l, s) :=
      component_succeeds fun v hv => by
        obtain ⟨m, hm⟩ := hkw _ (hmem _ (by simp)) v hv
        obtain ⟨kw, hg, hm⟩ := applied_cases hm
        simp only [String.reduceEq, false_and, true_and, or_false, false_or] at hm
        obtain ⟨p, h1, h2⟩ := hm
        rw [hv] at hg; cases hg
        rw [ht2 p h1]
        exact ⟨kw, p, m, rfl, rfl, h2.symm⟩
    have k4 : ∃ l, component s.params "clip_filter" (required s.pvPower) env.clipF s = (.ok l, s) :=
      component_succeeds fun v hv => by
        obtain ⟨m, hm⟩ := hkw _ (hmem _ (by simp)) v hv
        obtain ⟨kw, hg, hm⟩ := applied_cases hm
        simp only [String.reduceEq, false_and, true_and, or_false, false_or] at hm
        obtain ⟨p, h1, h2⟩ := hm
        rw [hv] at hg; cases hg
        rw [h1]
        exact ⟨kw, p, m, rfl, rfl, h2.symm⟩
    have k5 : ∃ l, component s.params "hour_angle_filter" (hourAngleLocation s) (fun kw loc => env.hourAngleF kw energy loc) s =
        (.ok l, s) :=
      component_succeeds fun v hv => by
        obtain ⟨m, hm⟩ := hkw _ (hmem _ (by simp)) v hv
        obtain ⟨kw, hg, hm⟩ := applied_cases hm
        simp only [String.reduceEq, false_and, true_and, or_false, false_or] at hm
        obtain ⟨p, h1, h2⟩ := hm
        rw [hv] at hg; cases hg
        refine ⟨kw, p, m, rfl, ?_, h2.symm⟩
        unfold hourAngleLocation
        rw [h1]
        rfl
    have k6 : ∃ l, caseClearsky env c s = (.ok l, s) := by
      cases c with
      | sensor => exact ⟨[], rfl⟩
      | clearsky =>
        obtain ⟨m, hm⟩ := h.runs "clearsky_filter" (by decide) (h.clearsky rfl)
        obtain ⟨kw, hg, hm⟩ := applied_cases hm
        simp only [String.reduceEq, false_and, and_self, true_or, true_and, false_or] at hm
        obtain ⟨p, q, h1, h2, h3⟩ := hm
        exact ⟨_, clearskyComponent_succeeds h1 h2 hg h3.symm⟩
    have k7 : ∃ l, sensorClearsky env s.params s = (.ok l, s) := by
      unfold sensorClearsky
      split_ifs with hh
      · obtain ⟨v, hv⟩ := get_of_has hh
        obtain ⟨m, hm⟩ := hkw _ (hmem _ (by simp)) v hv
        obtain ⟨kw, hg, hm⟩ := applied_cases hm
        simp only [String.reduceEq, false_and, or_true, true_and, false_or] at hm
        obtain ⟨p, q, h1, h2, h3⟩ := hm
        exact ⟨_, clearskyComponent_succeeds h1 h2 hg h3.symm⟩
      · exact ⟨[], rfl⟩
    obtain ⟨l1, k1⟩ := k1
    obtain ⟨l2, k2⟩ := k2
    obtain ⟨l3, k3⟩ := k3
    obtain ⟨l4, k4⟩ := k4
    obtain ⟨l5, k5⟩ := k5
    obtain ⟨l6, k6⟩ := k6
    obtain ⟨l7, k7⟩ := k7
    obtain ⟨l8, s8, k8⟩ := adHoc_succeeds (get := TA.params) (put := fun d s => { s with params := d })
      (idx := unionIndex (defaultMask energy :: (l1 ++ l2 ++ l3 ++ l4 ++ l5 ++ l6 ++ l7).map Prod.snd)) h.own
    unfold filter
    rw [bind_run_ok (self_run s), bind_run_ok hp1, bind_run_ok ht1, bind_run_ok k1, bind_run_ok k2, bind_run_ok k3, bind_run_ok k4,
      bind_run_ok k5, bind_run_ok k6, bind_run_ok k7, bind_run_ok k8]
    exact ⟨_, rfl⟩

/-- What the filters of the aggregates need: the entries are keyword arguments, the quantile of the insolation filter is between 0
and 1, the user's own mask is None or a Series. -/
structure Spec.AggregatedRun (k : Keywords) (d : FilterDict FVal) : Prop where
  kwargs : ∀ name ∈ ["two_way_window_filter", "insolation_filter", "hampel_filter", "directional_tukey_filter"],
    ∀ v, d.items.get? name = some v → ∃ kw, v = .kwargs kw
  quantile : ∀ kw, d.items.get? "insolation_filter" = some (.kwargs kw) → 0 ≤ k.insolation kw ∧ k.insolation kw ≤ 1
  own : ∀ kw, d.items.get? "ad_hoc_filter" ≠ some (.kwargs kw)

theorem aggregatedRun_of_fillEq {k : Keywords} {d d' : FilterDict FVal} (h : FillEq d d') (hd : Spec.AggregatedRun k d) :
    Spec.AggregatedRun k d' := by
  have key : ∀ name v, d'.items.get? name = some v → ∃ w, d.items.get? name = some w ∧ normV w = normV v := by
    intro name v hv
    have := h name
    rw [hv] at this
    obtain ⟨w, h1, h2⟩ := Option.map_eq_some_iff.mp this
    exact ⟨w, h1, h2⟩
  have kwEq : ∀ (w : FVal) (kw : String), normV w = .kwargs kw → w = .kwargs kw := by
    intro w kw hw
    cases w with
    | kwargs k => exact hw
    | none => cases hw
    | mask m => cases hw
  have kwEq' : ∀ (v : FVal) (kw : String), FVal.kwargs kw = normV v → v = .kwargs kw := fun v kw hv => kwEq v kw hv.symm
  refine ⟨fun name hn v hv => ?_, fun kw hv => ?_, fun kw hv => ?_⟩
  · obtain ⟨w, h1, h2⟩ := key name v hv
    obtain ⟨kw, rfl⟩ := hd.kwargs name hn w h1
    exact ⟨kw, kwEq' v kw h2⟩
  · obtain ⟨w, h1, h2⟩ := key _ _ hv
    exact hd.quantile kw (by rw [h1, kwEq w kw h2])
  · obtain ⟨w, h1, h2⟩ := key _ _ hv
    exact hd.own kw (by rw [h1, kwEq w kw h2])

variable {n : Numeric} {k : Keywords} {rest : Env Loc YoYResult σ} {c : Case}

theorem insolationFilter_ok_iff {x : List Cell} {q : ℚ} : (∃ v, insolationFilter x q = .ok v) ↔ 0 ≤ q ∧ q ≤ 1 := by
  unfold insolationFilter
  constructor
  · rintro ⟨v, hv⟩
    split_ifs at hv with h
    push Not at h
    exact h
  · rintro ⟨h1, h2⟩
    rw [if_neg (by push Not; exact ⟨h1, h2⟩)]
    exact ⟨_, rfl⟩

theorem aggregatedFilter_succeeds (agg insol : Series) (s : TA Loc YoYResult σ) (hi : (s.out c).insolation = some insol) :
    (∃ s', aggregatedFilter (degradationEnv n k rest) agg c s = (.ok (), s')) ↔ Spec.AggregatedRun k s.paramsAgg := by
  constructor
  · rintro ⟨s', h⟩
    unfold aggregatedFilter at h
    replace h := bind_ok.mp h
    obtain ⟨_, _, h0, h⟩ := h
    cases h0
    replace h := bind_ok.mp h
    obtain ⟨ins, s1, h1, h⟩ := h
    obtain ⟨e1, rfl⟩ := attr_ok h1
    replace h := bind_ok.mp h
    obtain ⟨l1, s2, h2, h⟩ := h
    obtain ⟨rfl, c1⟩ := component_ok (readOnly_pure _) h2
    replace h := bind_ok.mp h
    obtain ⟨l2, s3, h3, h⟩ := h
    obtain ⟨rfl, c2⟩ := component_ok (readOnly_pure _) h3
    replace h := bind_ok.mp h
    obtain ⟨l3, s4, h4, h⟩ := h
    obtain ⟨rfl, c3⟩ := component_ok (readOnly_pure _) h4
    replace h := bind_ok.mp h
    obtain ⟨l4, s5, h5, h⟩ := h
    obtain ⟨rfl, c4⟩ := component_ok (readOnly_pure _) h5
    replace h := bind_ok.mp h
    obtain ⟨l5, s6, h6, h⟩ := h
    refine ⟨fun name hn v hv => ?_, fun kw hv => ?_, fun kw hv => ?_⟩
    · simp only [List.mem_cons, List.not_mem_nil, or_false] at hn
      rcases hn with rfl | rfl | rfl | rfl
      · rcases c1 with ⟨c1, -⟩ | ⟨kw, _, _, c1, -⟩ <;> rw [c1] at hv <;> cases hv
        exact ⟨kw, rfl⟩
      · rcases c2 with ⟨c1, -⟩ | ⟨kw, _, _, c1, -⟩ <;> rw [c1] at hv <;> cases hv
        exact ⟨kw, rfl⟩
      · rcases c3 with ⟨c1, -⟩ | ⟨kw, _, _, c1, -⟩ <;> rw [c1] at hv <;> cases hv
        exact ⟨kw, rfl⟩
      · rcases c4 with ⟨c1, -⟩ | ⟨kw, _, _, c1, -⟩ <;> rw [c1] at hv <;> cases hv
        exact ⟨kw, rfl⟩
    · rcases c2 with ⟨c1, -⟩ | ⟨kw', x, m, c1, -, hm, -⟩ <;> rw [c1] at hv <;> cases hv
      refine insolationFilter_ok_iff (x := x.map Prod.snd).mp ?_
      change (insolationFilter (x.map Prod.snd) (k.insolation kw)).map (onRows x) = _ at hm
      cases hq : insolationFilter (x.map Prod.snd) (k.insolation kw) with
      | ok v => exact ⟨v, rfl⟩
      | error e => rw [hq] at hm; cases hm
    · rcases adHoc_ok h6 with ⟨h | h, -⟩ | ⟨m, h, -⟩
      all_goals (rw [hv] at h; cases h)
  · intro h
    have h0 : (attr (s.out c).insolation : M Loc YoYResult σ _) s = (.ok insol, s) := by rw [hi]; rfl
    obtain ⟨l1, k1⟩ := component_succeeds (d := s.paramsAgg) (name := "two_way_window_filter") (input := pure agg) (s := s)
      (f := (degradationEnv n k rest).twoWayF) fun v hv => by
        obtain ⟨kw, rfl⟩ := h.kwargs _ (by simp) v hv
        exact ⟨kw, _, _, rfl, rfl, rfl⟩
    obtain ⟨l2, k2⟩ := component_succeeds (d := s.paramsAgg) (name := "insolation_filter") (input := pure insol) (s := s)
      (f := (degradationEnv n k rest).insolationF) fun v hv => by
        obtain ⟨kw, rfl⟩ := h.kwargs _ (by simp) v hv
        obtain ⟨w, hw⟩ := insolationFilter_ok_iff (x := insol.map Prod.snd).mpr (h.quantile kw hv)
        refine ⟨kw, insol, onRows insol w, rfl, rfl, ?_⟩
        show (insolationFilter _ _).map _ = _
        rw [hw]
        rfl
    obtain ⟨l3, k3⟩ := component_succeeds (d := s.paramsAgg) (name := "hampel_filter") (input := pure agg) (s := s)
      (f := (degradationEnv n k rest).hampelF) fun v hv => by
        obtain ⟨kw, rfl⟩ := h.kwargs _ (by simp) v hv
        exact ⟨kw, _, _, rfl, rfl, rfl⟩
    obtain ⟨l4, k4⟩ := component_succeeds (d := s.paramsAgg) (name := "directional_tukey_filter") (input := pure agg) (s := s)
      (f := (degradationEnv n k rest).tukeyF) fun v hv => by
        obtain ⟨kw, rfl⟩ := h.kwargs _ (by simp) v hv
        exact ⟨kw, _, _, rfl, rfl, rfl⟩
    obtain ⟨l5, s5, k5⟩ := adHoc_succeeds (get := TA.paramsAgg) (put := fun d s => { s with paramsAgg := d })
      (idx := unionIndex (defaultMask agg :: (l1 ++ l2 ++ l3 ++ l4).map Prod.snd)) h.own
    unfold aggregatedFilter
    rw [bind_run_ok (self_run s), bind_run_ok h0, bind_run_ok k1, bind_run_ok k2, bind_run_ok k3, bind_run_ok k4, bind_run_ok k5]
    exact ⟨_, rfl⟩

/-- a mask that has every timestamp of the series -/
def Covers (m : BMask) (K : List Int) : Prop := ∀ t ∈ K, t ∈ m.map Prod.fst

theorem boolIndex_covers {x : Series} {m : BMask} (h : Covers m (x.map Prod.fst)) : boolIndex x m = .ok (select x m) := by
  unfold boolIndex
  rw [if_pos]
  rw [List.all_eq_true]
  intro r hr
  obtain ⟨v, hv, he⟩ := List.mem_map.mp (h r.1 (List.mem_map_of_mem hr))
  rw [List.any_eq_true]
  exact ⟨v, hv, by simpa using he⟩

theorem covers_allTrue {x : Series} {ms : List BMask} {comps : List (String × BMask)} :
    Covers (allTrue (unionIndex (defaultMask x :: ms)) (defaultMask x) comps) (x.map Prod.fst) := by
  intro t ht
  unfold allTrue
  rw [List.map_map]
  show t ∈ List.map id _
  rw [List.map_id, mem_unionIndex]
  refine ⟨defaultMask x, List.mem_cons_self, ?_⟩
  unfold defaultMask
  rw [List.map_map]
  exact ht

theorem mask_modifyOut (s : TA Loc ρ σ) (c : Case) (f : Out ρ σ → Out ρ σ) : (s.modifyOut c f).out c = f (s.out c) := by
  cases c <;> rfl

theorem filter_covers {env : Env Loc ρ σ} {energy : Series} {c : Case} {s s' : TA Loc ρ σ} (h : filter env energy c s = (.ok (), s')) :
    ∃ m, (s'.out c).mask = some m ∧ Covers m (energy.map Prod.fst) := by
  unfold filter at h
  replace h := bind_ok.mp h
  obtain ⟨_, s0, -, h⟩ := h
  replace h := bind_ok.mp h
  obtain ⟨_, s1, -, h⟩ := h
  replace h := bind_ok.mp h
  obtain ⟨_, s2, -, h⟩ := h
  replace h := bind_ok.mp h
  obtain ⟨_, s3, -, h⟩ := h
  replace h := bind_ok.mp h
  obtain ⟨_, s4, -, h⟩ := h
  replace h := bind_ok.mp h
  obtain ⟨_, s5, -, h⟩ := h
  replace h := bind_ok.mp h
  obtain ⟨_, s6, -, h⟩ := h
  replace h := bind_ok.mp h
  obtain ⟨_, s7, -, h⟩ := h
  replace h := bind_ok.mp h
  obtain ⟨_, s8, -, h⟩ := h
  replace h := bind_ok.mp h
  obtain ⟨_, s9, -, h⟩ := h
  replace h := bind_ok.mp h
  obtain ⟨_, s10, -, h⟩ := h
  rw [assign_run, Prod.mk.injEq] at h
  obtain ⟨-, rfl⟩ := h
  rw [mask_modifyOut]
  exact ⟨_, rfl, covers_allTrue⟩

theorem aggregatedFilter_covers {env : Env Loc ρ σ} {agg : Series} {c : Case} {s s' : TA Loc ρ σ}
    (h : aggregatedFilter env agg c s = (.ok (), s')) :
    ∃ m, (s'.out c).maskAgg = some m ∧ Covers m (agg.map Prod.fst) := by
  unfold aggregatedFilter at h
  replace h := bind_ok.mp h
  obtain ⟨_, s0, -, h⟩ := h
  replace h := bind_ok.mp h
  obtain ⟨_, s1, -, h⟩ := h
  replace h := bind_ok.mp h
  obtain ⟨_, s2, -, h⟩ := h
  replace h := bind_ok.mp h
  obtain ⟨_, s3, -, h⟩ := h
  replace h := bind_ok.mp h
  obtain ⟨_, s4, -, h⟩ := h
  replace h := bind_ok.mp h
  obtain ⟨_, s5, -, h⟩ := h
  replace h := bind_ok.mp h
  obtain ⟨_, s6, -, h⟩ := h
  rw [assign_run, Prod.mk.injEq] at h
  obtain ⟨-, rfl⟩ := h
  rw [mask_modifyOut]
  exact ⟨_, rfl, covers_allTrue⟩

/-- **C136 (filtering and aggregation).** Once normalized energy and insolation are there on one index, filtering, aggregating and
filtering the aggregates succeeds exactly if the filters run: selecting with the combined masks never fails, whatever the masks. -/
theorem C136_finish {N I : Series} (hk : N.map Prod.fst = I.map Prod.fst) (s : TA Loc YoYResult σ) :
    (∃ s', finish (degradationEnv n k rest) N I c s = (.ok (), s')) ↔
      Spec.FiltersRun (degradationEnv n k rest) s N c ∧ Spec.AggregatedRun k s.paramsAgg := by
  constructor
  · rintro ⟨s', h⟩
    obtain ⟨s1, h1, -⟩ := finish_filter h
    obtain ⟨s2, s3, mask, -, hp, hi, ha, -⟩ := finish_aggregated h
    exact ⟨(C136_filter _ _ _ _).mp ⟨s1, h1⟩,
      aggregatedRun_of_fillEq hp.symm ((aggregatedFilter_succeeds _ _ _ hi).mp ⟨s3, ha⟩)⟩
  · rintro ⟨h1, h2⟩
    obtain ⟨s1, h1⟩ := (C136_filter _ _ _ _).mpr h1
    obtain ⟨m, hm, hc⟩ := filter_covers h1
    have hp := filter_keeps (env := degradationEnv n k rest) (stable_paramsAgg c s.paramsAgg) (fun _ => rfl) N
    unfold KeepsAt at hp
    rw [h1] at hp
    have kA : (attr (s1.out c).mask : M Loc YoYResult σ _) s1 = (.ok m, s1) := by rw [hm]; rfl
    have kE : (call (boolIndex N m) : M Loc YoYResult σ _) s1 = (.ok (select N m), s1) := by rw [boolIndex_covers hc]; rfl
    have kI : (call (boolIndex I m) : M Loc YoYResult σ _) s1 = (.ok (select I m), s1) := by
      rw [boolIndex_covers (by rw [← hk]; exact hc)]; rfl
    have kG : (call ((degradationEnv n k rest).aggregate (select N m) (select I m)) : M Loc YoYResult σ _) s1 =
        (.ok (aggregateNorm k.aggFreq (select N m) (select I m)), s1) := rfl
    obtain ⟨s3, h3⟩ := (aggregatedFilter_succeeds (n := n) (k := k) (rest := rest) (c := c)
      (aggregateNorm k.aggFreq (select N m) (select I m)).1 (aggregateNorm k.aggFreq (select N m) (select I m)).2
      (s1.modifyOut c fun o => { o with insolation := some (aggregateNorm k.aggFreq (select N m) (select I m)).2 })
      (by rw [mask_modifyOut])).mpr (by
        refine aggregatedRun_of_fillEq ?_ h2
        cases c <;> exact hp)
    obtain ⟨m', hm', hc'⟩ := aggregatedFilter_covers h3
    have kA' : (attr (s3.out c).maskAgg : M Loc YoYResult σ _) s3 = (.ok m', s3) := by rw [hm']; rfl
    have hk' := aggregateNorm_keys (freq := k.aggFreq) (select_keys hk m)
    unfold finish
    rw [bind_run_ok h1, bind_run_ok (self_run s1), bind_run_ok kA, bind_run_ok kE, bind_run_ok kI, bind_run_ok kG,
      bind_run_ok (assign_run _ _), bind_run_ok h3, bind_run_ok (self_run s3), bind_run_ok kA',
      bind_run_ok (show (call (boolIndex _ m') : M Loc YoYResult σ _) s3 = (.ok _, s3) by rw [boolIndex_covers hc']; rfl),
      bind_run_ok (assign_run _ _),
      bind_run_ok (show (call (boolIndex _ m') : M Loc YoYResult σ _) _ = (.ok _, _) by
        rw [boolIndex_covers (by rw [← hk']; exact hc')]; rfl)]
    exact ⟨_, rfl⟩

/-- The normalization of a sensor analysis: PVWatts with the cell temperature that was given, or that follows from the ambient
temperature, or the expected power. -/
inductive Spec.SensorNormalized (env : Env Loc YoYResult σ) (energy p : Series) :
    Option Series → Option Series → Option Series → Series × Series → Prop where
  | given {tc ta r} : env.pvwattsNorm energy p tc = .ok r → SensorNormalized env energy p (some tc) ta none r
  | modelled {ta tc r} : env.cellTemp p ta true = .ok tc → env.pvwattsNorm energy p tc = .ok r →
      SensorNormalized env energy p none (some ta) none r
  | expected {tc ta pe r} : env.expectedNorm energy pe p = .ok r → SensorNormalized env energy p tc ta (some pe) r

theorem normalized_keys {energy p : Series} {tc ta pe : Option Series} {r : Series × Series}
    (h : Spec.SensorNormalized (degradationEnv n k rest) energy p tc ta pe r) : r.1.map Prod.fst = r.2.map Prod.fst := by
  cases h with
  | given h => exact (normalized_index (pvwattsNorm_normalized h)).1
  | modelled _ h => exact (normalized_index (pvwattsNorm_normalized h)).1
  | expected h => exact (normalized_index (expectedNorm_normalized h)).1

theorem filters_fresh {u : TA Loc YoYResult σ} {N p : Series} (hpoa : u.poa = some p)
    (hpar : u.params.items = defaultFilterParams ∧ u.tcell ≠ none ∨ u.params.items = Dict.del defaultFilterParams "tcell_filter") :
    Spec.FiltersRun (degradationEnv n k rest) u N .sensor ↔
      ∃ P m, u.pvPower = some P ∧ clipMask n.predict (n.clipArgs "") P = .ok m := by
  have hg : ∀ name, name ≠ "tcell_filter" → u.params.items.get? name = defaultFilterParams.get? name := by
    intro name hn
    rcases hpar with ⟨h, -⟩ | h
    · rw [h]
    · rw [h]
      by_cases h1 : name = "normalized_filter"
      · subst h1; decide
      · by_cases h2 : name = "poa_filter"
        · subst h2; decide
        · by_cases h3 : name = "clip_filter"
          · subst h3; decide
          · by_cases h4 : name = "clearsky_filter"
            · subst h4; decide
            · by_cases h5 : name = "ad_hoc_filter"
              · subst h5; decide
              · simp [Dict.get?, Dict.del, defaultFilterParams, Ne.symm h1, Ne.symm h2, Ne.symm h3, Ne.symm h4, Ne.symm h5,
                  Ne.symm hn]
  constructor
  · intro h
    have hc : u.params.items.get? "clip_filter" = some (.kwargs "") := hg _ (by decide)
    obtain ⟨m, hm⟩ := h.runs "clip_filter" (by decide) (by rw [hc]; simp)
    obtain ⟨kw, h1, h2⟩ := applied_cases hm
    rw [hc] at h1
    cases h1
    simp only [String.reduceEq, false_and, true_and, or_false, false_or] at h2
    obtain ⟨P, h3, h4⟩ := h2
    exact ⟨P, m, h3, h4.symm⟩
  · rintro ⟨P, m, hP, hm⟩
    refine ⟨fun name hn hv => ?_, fun kw => ?_, fun h => (by cases h), fun h => (by cases h)⟩
    · have hn' : name ∈ ["normalized_filter", "poa_filter", "tcell_filter", "clip_filter", "hour_angle_filter",
        "sensor_clearsky_filter"] := hn
      simp only [List.mem_cons, List.not_mem_nil, or_false] at hn'
      rcases hn' with rfl | rfl | rfl | rfl | rfl | rfl
      · exact ⟨_, .normalized (hg _ (by decide))⟩
      · exact ⟨_, .poaSensor (hg _ (by decide)) hpoa⟩
      · rcases hpar with ⟨h1, h2⟩ | h1
        · obtain ⟨tc, htc⟩ := Option.ne_none_iff_exists'.mp h2
          exact ⟨_, .tcellSensor (kw := "") (by rw [h1]; decide) htc⟩
        · exact absurd (by rw [h1]; decide) hv
      · exact ⟨m, by have := Spec.Applied.clip (env := degradationEnv n k rest) (energy := N) (c := .sensor) (hg "clip_filter" (by decide)) hP
                     change Spec.Applied _ _ _ _ _ (clipMask n.predict (n.clipArgs "") P) at this
                     rw [hm] at this; exact this⟩
      · exact absurd (hg _ (by decide)) hv
      · exact absurd (hg _ (by decide)) hv
    · rw [hg _ (by decide)]
      intro h
      cases h

theorem aggregated_fresh : Spec.AggregatedRun k ⟨validFilterParamsAggregated, defaultFilterParamsAggregated⟩ := by
  refine ⟨fun name hn v hv => ?_, fun kw hv => ?_, fun kw hv => ?_⟩
  · simp only [List.mem_cons, List.not_mem_nil, or_false] at hn
    rcases hn with rfl | rfl | rfl | rfl
    · cases hv; exact ⟨_, rfl⟩
    all_goals cases hv
  · cases hv
  · cases hv

/-- **C136 (a new sensor analysis).** With the default filters, the preprocessing of a sensor analysis succeeds exactly if irradiance
was given, the normalization succeeds, and power was given and the clipping filter runs on it. No values of the measurements can make
one of the other filters or the selections fail. -/
theorem C136_sensor (power : Option Series) (energy : Series) (poa tcell tamb expected : Option Series) (daily : Bool) :
    (∃ s', sensorPreprocess (degradationEnv n k rest) (init power energy poa tcell tamb expected daily) = (.ok (), s')) ↔
      ∃ p r P m, poa = some p ∧ Spec.SensorNormalized (degradationEnv n k rest) energy p tcell tamb expected r ∧
        power = some P ∧ clipMask n.predict (n.clipArgs "") P = .ok m := by
  generalize hs : (init power energy poa tcell tamb expected daily : TA Loc YoYResult σ) = s
  have e1 : s.poa = poa := by rw [← hs]; rfl
  have e2 : s.pvPower = power := by rw [← hs]; rfl
  have e3 : s.tcell = tcell := by rw [← hs]; rfl
  have e4 : s.tamb = tamb := by rw [← hs]; rfl
  have e5 : s.powerExpected = expected := by rw [← hs]; rfl
  have e6 : s.pvEnergy = energy := by rw [← hs]; rfl
  have e7 : s.paramsAgg = ⟨validFilterParamsAggregated, defaultFilterParamsAggregated⟩ := by rw [← hs]; rfl
  have e8 : s.params.items = if expected.isSome ∧ tcell = none then Dict.del defaultFilterParams "tcell_filter"
      else defaultFilterParams := by rw [← hs]; rfl
  clear hs
  have hcs : sensorClearskyPoa (degradationEnv n k rest) s s = (.ok ⟨⟩, s) := by
    unfold sensorClearskyPoa
    rw [e8]
    rw [if_neg (by split_ifs <;> decide)]
    rfl
  -- what happens after the normalization
  have key : ∀ (u : TA Loc YoYResult σ) (p : Series) (r : Series × Series),
      sensorNormalize (degradationEnv n k rest) s p s = (.ok r, u) → s.poa = some p →
      Spec.SensorNormalized (degradationEnv n k rest) energy p tcell tamb expected r ∧
      u.poa = s.poa ∧ u.pvPower = s.pvPower ∧ u.params = s.params ∧ u.paramsAgg = s.paramsAgg ∧
      (expected = none → u.tcell ≠ none) ∧ (tcell ≠ none → u.tcell ≠ none) := by
    intro u p r h hp
    unfold sensorNormalize at h
    rw [e5] at h
    cases expected with
    | some pe =>
      obtain ⟨h1, rfl⟩ := call_ok h
      rw [e6] at h1
      exact ⟨.expected h1, rfl, rfl, rfl, rfl, by simp, by rw [e3]; exact id⟩
    | none =>
      replace h := bind_ok.mp h
      obtain ⟨tc, v, h1, h⟩ := h
      obtain ⟨h2, rfl⟩ := call_ok h
      rw [e6] at h2
      unfold sensorTcell at h1
      rw [e3, e4] at h1
      cases tcell with
      | some x =>
        cases h1
        exact ⟨.given h2, rfl, rfl, rfl, rfl, by simp [e3], by simp [e3]⟩
      | none =>
        cases tamb with
        | none => cases h1
        | some ta =>
          replace h1 := bind_ok.mp h1
          obtain ⟨x, v, h3, h1⟩ := h1
          obtain ⟨h4, rfl⟩ := call_ok h3
          cases h1
          exact ⟨.modelled h4 h2, rfl, rfl, rfl, rfl, by simp, by simp⟩
  have key2 : ∀ (p : Series) (r : Series × Series), Spec.SensorNormalized (degradationEnv n k rest) energy p tcell tamb expected r →
      ∃ u, sensorNormalize (degradationEnv n k rest) s p s = (.ok r, u) := by
    intro p r h
    unfold sensorNormalize
    rw [e5]
    cases h with
    | given h =>
      have ht : ∀ tc ta, s.tcell = some tc → s.tamb = ta → sensorTcell (degradationEnv n k rest) s p s = (.ok tc, s) := by
        intro tc ta h1 h2
        unfold sensorTcell
        rw [h1]
        rfl
      simp only
      rw [bind_run_ok (ht _ _ e3 e4), e6, h]
      exact ⟨_, rfl⟩
    | modelled h1 h =>
      have ht : ∀ ta tc, s.tcell = none → s.tamb = some ta → (degradationEnv n k rest).cellTemp p ta true = .ok tc →
          ∃ u, sensorTcell (degradationEnv n k rest) s p s = (.ok tc, u) := by
        intro ta tc h1 h2 h3
        unfold sensorTcell
        rw [h1, h2]
        simp only
        rw [h3]
        exact ⟨_, rfl⟩
      obtain ⟨u, hu⟩ := ht _ _ e3 e4 h1
      simp only
      rw [bind_run_ok hu, e6, h]
      exact ⟨_, rfl⟩
    | expected h =>
      simp only
      rw [e6, h]
      exact ⟨_, rfl⟩
  have fin : ∀ (u : TA Loc YoYResult σ) (p : Series) (r : Series × Series),
      sensorNormalize (degradationEnv n k rest) s p s = (.ok r, u) → s.poa = some p →
      ((∃ s', finish (degradationEnv n k rest) r.1 r.2 .sensor u = (.ok (), s')) ↔
        ∃ P m, power = some P ∧ clipMask n.predict (n.clipArgs "") P = .ok m) := by
    intro u p r h hp
    obtain ⟨h1, h2, h3, h4, h5, h6, h7⟩ := key u p r h hp
    rw [C136_finish (normalized_keys h1), filters_fresh (h2.trans hp), h3, e2, h5, e7]
    · exact and_iff_left aggregated_fresh
    · rw [h4, e8]
      split_ifs with hh
      · exact .inr rfl
      · refine .inl ⟨rfl, ?_⟩
        by_cases ht : tcell = none
        · refine h6 ?_
          by_contra he
          exact hh ⟨Option.isSome_iff_ne_none.mpr he, ht⟩
        · exact h7 ht
  constructor
  · rintro ⟨s', h⟩
    unfold sensorPreprocess at h
    replace h := bind_ok.mp h
    obtain ⟨_, _, h0, h⟩ := h
    cases h0
    replace h := bind_ok.mp h
    obtain ⟨p, s1, h1, h⟩ := h
    obtain ⟨hpoa, e⟩ := required_ok h1
    subst s1
    rw [bind_run_ok hcs] at h
    replace h := bind_ok.mp h
    obtain ⟨r, u, h3, h⟩ := h
    obtain ⟨P, m, hP, hm⟩ := (fin u p r h3 hpoa).mp ⟨s', h⟩
    exact ⟨p, r, P, m, e1 ▸ hpoa, (key u p r h3 hpoa).1, hP, hm⟩
  · rintro ⟨p, r, P, m, rfl, hn, hP, hm⟩
    obtain ⟨u, hu⟩ := key2 p r hn
    obtain ⟨s', hs'⟩ := (fin u p r hu e1).mpr ⟨P, m, hP, hm⟩
    refine ⟨s', ?_⟩
    unfold sensorPreprocess
    rw [bind_run_ok (self_run s), e1, bind_run_ok (show (required (some p) : M Loc YoYResult σ _) s = (.ok p, s) from rfl),
      bind_run_ok hcs, bind_run_ok hu]
    exact hs'

/-! ### regular measurements -/

/-- the given frequency is the step of the series -/
theorem energy_step {t0 f : Int} (m : Nat) (x : Nat → Cell) :
    energyFromPower (regular t0 f (m + 2) x) (some f) none .rightLabeled none =
      energyFromPower (regular t0 f (m + 2) x) none none .rightLabeled none := by
  unfold energyFromPower
  have hlen : ¬ (regular t0 f (m + 2) x).length ≤ 1 := by simp [regular]
  have hmed : median (valids ((tStepNs ((regular t0 f (m + 2) x).map Prod.fst)).map Prod.snd)) = some (f : ℚ) := by
    unfold tStepNs
    rw [valids_gaps_list]
    have := indexSteps_regular t0 f (m + 1) x
    unfold indexSteps at this
    rw [this]
    exact median_replicate m f
  rw [if_neg hlen, if_neg hlen]
  dsimp only
  rw [hmed]
  dsimp only [Option.getD]
  rw [Int.floor_intCast]

theorem aggregate_none {x : Series} {f : Int} {maxNs : ℚ} (h : dropna x = []) : aggregate x f maxNs .rightLabeled = .error .indexError := by
  unfold aggregate
  cases hx : x.map Prod.fst with
  | nil => rfl
  | cons a l =>
    dsimp only
    rw [h]

/-- energy of regular readings can be computed exactly if one of them is valid -/
theorem energy_regular_iff {t0 f : Int} (hf : 0 < f) (m : Nat) (x : Nat → Cell) :
    (∃ E, energyFromPower (regular t0 f (m + 2) x) (some f) none .rightLabeled none = .ok E) ↔ ∃ j, j < m + 2 ∧ x j ≠ none := by
  constructor
  · rintro ⟨E, hE⟩
    by_contra hx
    push Not at hx
    have hd : dropna (regular t0 f (m + 2) x) = [] := by
      rw [List.eq_nil_iff_forall_not_mem]
      rintro ⟨t, v⟩ hr
      obtain ⟨j, hj, -, hv⟩ := mem_regular.mp (mem_dropna.mp hr)
      rw [hx j hj] at hv
      cases hv
    have hlen : ¬ (regular t0 f (m + 2) x).length ≤ 1 := by simp [regular]
    have hmed : median (valids ((tStepNs ((regular t0 f (m + 2) x).map Prod.fst)).map Prod.snd)) = some (f : ℚ) := by
      unfold tStepNs
      rw [valids_gaps_list]
      have := indexSteps_regular t0 f (m + 1) x
      unfold indexSteps at this
      rw [this]
      exact median_replicate m f
    unfold energyFromPower at hE
    rw [if_neg hlen] at hE
    dsimp only at hE
    rw [hmed] at hE
    dsimp only [Option.getD] at hE
    have hkeys := keys_regular t0 f (m + 2) x
    have e0 : ((regular t0 f (m + 2) x).map Prod.fst).headD 0 = t0 := by
      rw [show (regular t0 f (m + 2) x).map Prod.fst = keys (regular t0 f (m + 2) x) from rfl, hkeys, List.range_succ_eq_map]
      simp
    have en : ((regular t0 f (m + 2) x).map Prod.fst).getLastD 0 = t0 + ((m + 1 : Nat) : Int) * f := by
      rw [show (regular t0 f (m + 2) x).map Prod.fst = keys (regular t0 f (m + 2) x) from rfl, hkeys, List.range_succ]
      simp [List.getLastD_eq_getLast?]
    have hdr : dateRange t0 (t0 + ((m + 1 : Nat) : Int) * f) f = (List.range (m + 2)).map fun k : Nat => t0 + (k : Int) * f := by
      unfold dateRange
      have : (t0 + ((m + 1 : Nat) : Int) * f - t0) / f = ((m + 1 : Nat) : Int) := by
        rw [show t0 + ((m + 1 : Nat) : Int) * f - t0 = ((m + 1 : Nat) : Int) * f by ring]
        exact Int.mul_ediv_cancel _ (by omega)
      rw [this]
      congr 1
    rw [if_pos (le_refl _), e0, en, hdr, interpolate_regular_self hf] at hE
    simp only [Except.bind, aggregate_none hd] at hE
    cases hE
  · intro hx
    rw [energy_step]
    exact ⟨_, energy_regular hf m x hx none⟩

theorem lookup_regular {t0 f : Int} (hf : 0 < f) {m : Nat} {x : Nat → Cell} {j : Nat} (hj : j < m) :
    lookupK (regular t0 f m x) (t0 + (j : Int) * f) = x j :=
  lookupK_of_mem (regular_sorted hf m x).nodup (mem_regular.mpr ⟨j, hj, rfl, rfl⟩)

/-- the normalization of regular readings succeeds exactly if the model power can be computed for at least one of them -/
theorem pvwatts_regular_iff {t0 f : Int} (hf : 0 < f) (m : Nat) (c g T : Nat → Cell)
    (hfr : n.freq ((regular (t0 + f) f (m + 1 + 1) fun k => cellOp (fun _ y => y * f / nsPerHour) (c k) (c (k + 1))).map Prod.fst) = some f) :
    (∃ r, pvwattsNorm n.rated n.gamma n.freq
      (regular (t0 + f) f (m + 1 + 1) fun k => cellOp (fun _ y => y * f / nsPerHour) (c k) (c (k + 1)))
      (regular t0 f (m + 1 + 2) g) (regular t0 f (m + 1 + 2) T) = .ok r) ↔
      ∃ j, j < m + 1 + 2 ∧ g j ≠ none ∧ (n.gamma = none ∨ T j ≠ none) := by
  have hrows : weatherRows (regular t0 f (m + 1 + 2) g) (regular t0 f (m + 1 + 2) T) =
      (List.range (m + 1 + 2)).map fun j : Nat => (t0 + (j : Int) * f, g j, T j) := by
    unfold weatherRows
    conv_lhs => unfold regular
    rw [List.map_map]
    refine List.map_congr_left fun j hj => ?_
    simp only [Function.comp_apply]
    have := lookup_regular (t0 := t0) hf (x := T) (List.mem_range.mp hj)
    unfold regular at this
    rw [this]
  let P : Nat → Cell := fun j => pvwattsDcPower (g j) (n.rated.getD 1) (some (T j)) 1000 25 n.gamma
  have hP : pvwattsSeries (weatherRows (regular t0 f (m + 1 + 2) g) (regular t0 f (m + 1 + 2) T)) (n.rated.getD 1) 1000 25 true n.gamma =
      regular t0 f (m + 1 + 2) P := by
    rw [hrows]
    unfold pvwattsSeries
    rw [List.map_map]
    rfl
  have hg : (weatherRows (regular t0 f (m + 1 + 2) g) (regular t0 f (m + 1 + 2) T)).map (fun r => (r.1, r.2.1)) =
      regular t0 f (m + 1 + 2) g := by
    rw [hrows, List.map_map]
    rfl
  have hPv : ∀ j, P j ≠ none ↔ g j ≠ none ∧ (n.gamma = none ∨ T j ≠ none) := by
    intro j
    show pvwattsDcPower _ _ _ _ _ _ ≠ none ↔ _
    unfold pvwattsDcPower
    cases g j <;> cases T j <;> cases n.gamma <;> simp [cellOp]
  have hco : cellCmp (fun a b => decide (a > b)) (meanDelta ((regular t0 f (m + 1 + 2) P).map Prod.fst))
      (meanDelta ((regular (t0 + f) f (m + 1 + 1) fun k => cellOp (fun _ y => y * f / nsPerHour) (c k) (c (k + 1))).map Prod.fst)) = false := by
    rw [meanDelta_regular, show m + 1 + 1 = m + 2 from rfl, meanDelta_regular]
    simp [cellCmp]
  have hnorm : (∃ r, pvwattsNorm n.rated n.gamma n.freq
      (regular (t0 + f) f (m + 1 + 1) fun k => cellOp (fun _ y => y * f / nsPerHour) (c k) (c (k + 1)))
      (regular t0 f (m + 1 + 2) g) (regular t0 f (m + 1 + 2) T) = .ok r) ↔ ∃ j, j < m + 1 + 2 ∧ P j ≠ none := by
    unfold pvwattsNorm normalizeWithPvwatts normalizeWithExpectedPower
    rw [hfr, hP, hg]
    simp only
    unfold normalizeEnergy
    simp only [hco, Bool.false_eq_true, if_false, Except.bind]
    constructor
    · rintro ⟨r, hr⟩
      rw [← energy_regular_iff (t0 := t0) hf]
      cases hx : energyFromPower (regular t0 f (m + 1 + 2) P) (some f) none .rightLabeled none with
      | ok E => exact ⟨E, rfl⟩
      | error e => rw [hx] at hr; cases hr
    · rintro ⟨j, hj, hPj⟩
      obtain ⟨E, hE⟩ := (energy_regular_iff (t0 := t0) hf (m + 1) P).mpr ⟨j, hj, hPj⟩
      obtain ⟨I, hI⟩ := (energy_regular_iff (t0 := t0) hf (m + 1) g).mpr ⟨j, hj, ((hPv j).mp hPj).1⟩
      rw [hE, hI]
      exact ⟨_, rfl⟩
  have hiff : (∃ j, j < m + 1 + 2 ∧ P j ≠ none) ↔ ∃ j, j < m + 1 + 2 ∧ g j ≠ none ∧ (n.gamma = none ∨ T j ≠ none) :=
    exists_congr fun j => and_congr_right fun _ => hPv j
  rw [← hiff, ← hnorm]

theorem clip_regular {t0 f : Int} (hf : 0 < f) (m : Nat) (hm : 11 ≤ m) (c : Nat → Cell)
    {mounting : String} {cutoff : ℚ} {roll : Option Nat} (hclip : n.clipArgs "" = .logic mounting cutoff roll)
    (hmount : mounting = "fixed" ∨ mounting = "single_axis_tracking") :
    ∃ v, clipMask n.predict (n.clipArgs "") (regular t0 f m c) = .ok v := by
  obtain ⟨out, ho⟩ := Clip.C75_total (s := regular t0 f m c) (regular_sorted hf _ c)
    (by simp only [regular, List.length_map, List.length_range]; omega) hmount cutoff roll
  unfold clipMask clipVerdicts
  rw [hclip]
  simp only
  rw [ho]
  exact ⟨_, rfl⟩

/-- **C136 (regular measurements).** Power, irradiance and cell temperature recorded together at a regular step, more than ten
readings with at least one valid power: the preprocessing of a new sensor analysis with the default filters and the logic clipping
filter succeeds exactly if the model power can be computed for at least one reading. -/
theorem C136_regular {t0 f : Int} (hf : 0 < f) (m : Nat) (hm : 11 ≤ m) (c g T : Nat → Cell) (hc : ∃ j, j < m ∧ c j ≠ none)
    {energy : Series} (he : energyFromPower (regular t0 f m c) none none .rightLabeled none = .ok energy)
    (hfr : n.freq (energy.map Prod.fst) = some f)
    {mounting : String} {cutoff : ℚ} {roll : Option Nat} (hclip : n.clipArgs "" = .logic mounting cutoff roll)
    (hmount : mounting = "fixed" ∨ mounting = "single_axis_tracking") (tamb : Option Series) (daily : Bool) :
    (∃ s', sensorPreprocess (degradationEnv n k rest) (init (some (regular t0 f m c)) energy (some (regular t0 f m g))
        (some (regular t0 f m T)) tamb none daily) = (.ok (), s')) ↔
      ∃ j, j < m ∧ g j ≠ none ∧ (n.gamma = none ∨ T j ≠ none) := by
  obtain ⟨m, rfl⟩ : ∃ l, m = l + 1 + 2 := ⟨m - 3, by omega⟩
  have hE := energy_regular (t0 := t0) hf (m + 1) c hc none
  rw [he] at hE
  cases hE
  obtain ⟨v, hv⟩ := clip_regular (n := n) (t0 := t0) hf (m + 1 + 2) hm c hclip hmount
  rw [C136_sensor, ← pvwatts_regular_iff hf m c g T hfr]
  constructor
  · rintro ⟨p, r, -, -, hp, hr, -, -⟩
    cases hp
    cases hr with
    | given hr => exact ⟨r, hr⟩
  · rintro ⟨r, hr⟩
    exact ⟨_, r, _, v, rfl, .given hr, rfl, hv⟩

/-! ### concrete cases -/

/-- the filters of the small object of C53 run -/
example : Spec.FiltersRun exEnv exTA exTA.pvEnergy .sensor :=
  (C136_filter _ _ _ _).mp ⟨(filter exEnv exTA.pvEnergy .sensor exTA).2, Prod.ext (by decide +kernel) rfl⟩

/-- they do not run without power -/
example : ¬ Spec.FiltersRun exEnv { exTA with pvPower := none } exTA.pvEnergy .sensor := by
  rw [← C136_filter]
  rintro ⟨s', h⟩
  have h1 : (filter exEnv exTA.pvEnergy .sensor { exTA with pvPower := none }).1 = .error .valueError := by decide +kernel
  rw [h] at h1
  cases h1

/-- twelve hourly readings of power 1 -/
def exHourly : Series := regular 0 hour 12 fun _ => some 1

/-- hourly data, temperature coefficient -4/1000 and the logic clipping filter -/
def exLogic : Numeric :=
  { exPlate with
    gamma := some (-4/1000)
    freq := fun _ => some hour
    clipArgs := fun _ => .logic "fixed" (2/10) none }

/-- irradiance from the third, temperature up to the fifth reading: the analysis runs -/
example : ∃ energy s', sensorPreprocess (degradationEnv exLogic exKeywords exNothing) (init (some exHourly) energy
    (some (regular 0 hour 12 fun j => if 2 ≤ j then some 800 else none))
    (some (regular 0 hour 12 fun j => if j < 5 then some 30 else none)) none none false) = (.ok (), s') := by
  refine ⟨_, (C136_regular (by decide) 12 (by decide) (fun _ => some 1) _ _ ⟨0, by decide, by decide⟩
    (energy_regular (by decide) 10 (fun _ => some 1) ⟨0, by decide, by decide⟩ none) rfl rfl (.inl rfl) none false).mpr
    ⟨3, by decide, by decide, .inr (by decide)⟩⟩

/-- irradiance from the third, temperature up to the second reading: the analysis fails -/
example : ∃ energy, ¬ ∃ s', sensorPreprocess (degradationEnv exLogic exKeywords exNothing) (init (some exHourly) energy
    (some (regular 0 hour 12 fun j => if 2 ≤ j then some 800 else none))
    (some (regular 0 hour 12 fun j => if j < 2 then some 30 else none)) none none false) = (.ok (), s') := by
  obtain ⟨energy, he⟩ : ∃ e, energyFromPower exHourly none none .rightLabeled none = .ok e :=
    ⟨_, energy_regular (by decide) 10 (fun _ => some 1) ⟨0, by decide, by decide⟩ none⟩
  refine ⟨energy, fun h => ?_⟩
  obtain ⟨j, -, h1, h2⟩ := (C136_regular (by decide) 12 (by decide) (fun _ => some 1) _ _ ⟨0, by decide, by decide⟩
    he rfl rfl (.inl rfl) none false).mp h
  rcases h2 with h2 | h2
  · cases h2
  · by_cases hj : 2 ≤ j
    · rw [if_neg (by omega)] at h2
      exact h2 rfl
    · rw [if_neg hj] at h1
      exact h1 rfl

end Verif.Chains
