import Verif.Props.ChainsOutcome
import Verif.Lemmas.ChainsMemory
import Verif.Props.ChainsMemory

/-! # C136 for the clear-sky case: when the preprocessing of a clear-sky analysis succeeds -/

namespace Verif.Chains
open Verif.Spec
variable {Loc σ : Type} {n : Numeric} {k : Keywords} {rest : Env Loc YoYResult σ}

/-! ## specification -/

/-- the clear-sky irradiance of an analysis: the one given, else the one modelled for the location at the times of the measured
irradiance -/
inductive Spec.ClearIrradiance (env : Env Loc YoYResult σ) (loc : Option Loc) (p : Series) : Option Series → Series → Prop where
  | given {g} : ClearIrradiance env loc p (some g) g
  | modelled {l g} : loc = some l → env.clearskyPoa l p = .ok g → ClearIrradiance env loc p none g

/-- the clear-sky ambient temperature: the one given, else the one modelled for the location at the times of the clear-sky
irradiance -/
inductive Spec.ClearAmbient (env : Env Loc YoYResult σ) (loc : Option Loc) (g : Series) : Option Series → Series → Prop where
  | given {ta} : ClearAmbient env loc g (some ta) ta
  | modelled {l ta} : loc = some l → env.clearskyTamb l g = .ok ta → ClearAmbient env loc g none ta

/-- the clear-sky cell temperature: the one given, else computed from clear-sky irradiance and ambient temperature -/
inductive Spec.ClearCell (env : Env Loc YoYResult σ) (loc : Option Loc) (g : Series) :
    Option Series → Option Series → Series → Prop where
  | given {ta tc} : ClearCell env loc g ta (some tc) tc
  | computed {ta ta' tc} : Spec.ClearAmbient env loc g ta ta' → env.cellTemp g ta' false = .ok tc → ClearCell env loc g ta none tc

/-- the normalization of a clear-sky analysis: PVWatts with the clear-sky cell temperature, or the expected power -/
inductive Spec.ClearNormalized (env : Env Loc YoYResult σ) (energy g tc : Series) : Option Series → Series × Series → Prop where
  | pvwatts {r} : env.pvwattsNorm energy g tc = .ok r → ClearNormalized env energy g tc none r
  | expected {pe r} : env.expectedNorm energy pe g = .ok r → ClearNormalized env energy g tc (some pe) r

/-! ## steps -/

theorem clear_keys {energy g tc : Series} {pe : Option Series} {r : Series × Series}
    (h : Spec.ClearNormalized (degradationEnv n k rest) energy g tc pe r) : r.1.map Prod.fst = r.2.map Prod.fst := by
  cases h with
  | pvwatts h => exact (normalized_index (pvwattsNorm_normalized h)).1
  | expected h => exact (normalized_index (expectedNorm_normalized h)).1

theorem filters_clear {u : TA Loc YoYResult σ} {N g tc : Series} (hg : u.poaCs = some (some g)) (htc : u.tcellCs = some (some tc))
    (hpar : u.params.items = defaultFilterParams ∨ u.params.items = Dict.del defaultFilterParams "tcell_filter") :
    Spec.FiltersRun (degradationEnv n k rest) u N .clearsky ↔
      ∃ P m p q, u.pvPower = some P ∧ clipMask n.predict (n.clipArgs "") P = .ok m ∧ u.poa = some p ∧ rest.clearskyF "" p g = .ok q := by
  have hk : ∀ name ∈ ["normalized_filter", "poa_filter", "clip_filter", "clearsky_filter"],
      u.params.items.get? name = some (.kwargs "") := by
    intro name hn
    simp only [List.mem_cons, List.not_mem_nil, or_false] at hn
    rcases hpar with h | h <;> rw [h] <;> rcases hn with rfl | rfl | rfl | rfl <;> rfl
  have ho : u.params.items.get? "hour_angle_filter" = none ∧ u.params.items.get? "sensor_clearsky_filter" = none ∧
      u.params.items.get? "ad_hoc_filter" = some .none := by
    rcases hpar with h | h <;> rw [h] <;> exact ⟨rfl, rfl, rfl⟩
  constructor
  · intro h
    obtain ⟨m, hm⟩ := h.runs "clip_filter" (by decide) (by rw [hk _ (by decide)]; simp)
    obtain ⟨kw, h1, h2⟩ := applied_cases hm
    rw [hk _ (by decide)] at h1
    cases h1
    simp only [String.reduceEq, false_and, true_and, or_false, false_or] at h2
    obtain ⟨P, h3, h4⟩ := h2
    obtain ⟨q, hq⟩ := h.runs "clearsky_filter" (by decide) (by rw [hk _ (by decide)]; simp)
    obtain ⟨kw, h1, h2⟩ := applied_cases hq
    rw [hk _ (by decide)] at h1
    cases h1
    simp only [String.reduceEq, false_and, true_and, or_false, false_or] at h2
    obtain ⟨p, g', h5, h6, h7⟩ := h2
    rw [hg] at h6
    cases h6
    exact ⟨P, m, p, q, h3, h4.symm, h5, h7.symm⟩
  · rintro ⟨P, m, p, q, hP, hm, hp, hq⟩
    refine ⟨fun name hn hv => ?_, fun kw => ?_, fun _ => (by rw [htc]; simp), fun _ => (by rw [hk _ (by decide)]; simp)⟩
    · have hn' : name ∈ ["normalized_filter", "poa_filter", "tcell_filter", "clip_filter", "hour_angle_filter",
        "clearsky_filter", "sensor_clearsky_filter"] := hn
      simp only [List.mem_cons, List.not_mem_nil, or_false] at hn'
      rcases hn' with rfl | rfl | rfl | rfl | rfl | rfl | rfl
      · exact ⟨_, .normalized (hk _ (by decide))⟩
      · exact ⟨_, .poaClearsky (hk _ (by decide)) hg⟩
      · rcases hpar with h1 | h1
        · exact ⟨_, .tcellClearsky (kw := "") (by rw [h1]; rfl) htc⟩
        · exact absurd (by rw [h1]; rfl) hv
      · exact ⟨m, by have := Spec.Applied.clip (env := degradationEnv n k rest) (energy := N) (c := .clearsky) (hk "clip_filter" (by decide)) hP
                     change Spec.Applied _ _ _ _ _ (clipMask n.predict (n.clipArgs "") P) at this
                     rw [hm] at this; exact this⟩
      · exact absurd ho.1 hv
      · exact ⟨q, by have := Spec.Applied.clearsky (env := degradationEnv n k rest) (energy := N) (hk "clearsky_filter" (by decide)) hp hg
                     change Spec.Applied _ _ _ _ _ (rest.clearskyF "" p g) at this
                     rw [hq] at this; exact this⟩
      · exact absurd ho.2.1 hv
    · rw [ho.2.2]
      intro h
      cases h

variable {env : Env Loc YoYResult σ}

theorem ensureClearsky_iff {s u : TA Loc YoYResult σ} {loc : Option Loc} {cs : Option Series} (h1 : s.location = some loc)
    (h2 : s.tilt = true) (h3 : s.poaCs = some cs) :
    ensureClearskyPoa env s = (.ok ⟨⟩, u) ↔ ∃ g, u = { s with poaCs := some (some g) } ∧
      (cs = some g ∨ cs = none ∧ ∃ p, s.poa = some p ∧ Spec.ClearIrradiance env loc p cs g) := by
  unfold ensureClearskyPoa
  rw [bind_run_ok (self_run s), h3]
  cases cs with
  | some g =>
    show ((.ok ⟨⟩, s) : Except PyErr PUnit × TA Loc YoYResult σ) = _ ↔ _
    constructor
    · intro h
      cases h
      exact ⟨g, by rw [← h3], .inl rfl⟩
    · rintro ⟨g', rfl, h | ⟨h, -⟩⟩
      · cases h; rw [← h3]
      · cases h
  | none =>
    show calcClearskyPoa env s s = _ ↔ _
    unfold calcClearskyPoa
    rw [h1, h2]
    cases hp : s.poa with
    | none =>
      constructor
      · intro h; cases h
      · rintro ⟨_, _, h | ⟨-, _, h, -⟩⟩ <;> cases h
    | some p =>
      cases loc with
      | none =>
        constructor
        · intro h; cases h
        · rintro ⟨_, _, h | ⟨-, _, -, h⟩⟩
          · cases h
          · cases h; rename_i h _; cases h
      | some l =>
        show (call (env.clearskyPoa l p) >>= fun v => assign fun s => { s with poaCs := some (some v) } : M Loc YoYResult σ PUnit) s = _ ↔ _
        cases hv : env.clearskyPoa l p with
        | error e =>
          constructor
          · intro h; cases h
          · rintro ⟨_, _, h | ⟨-, _, h', h⟩⟩
            · cases h
            · cases h'; cases h with
              | modelled e1 e2 => cases e1; rw [hv] at e2; cases e2
        | ok v =>
          constructor
          · intro h; cases h; exact ⟨v, by simp only [hp, h1, h2], .inr ⟨rfl, p, rfl, .modelled rfl hv⟩⟩
          · rintro ⟨g, rfl, h | ⟨-, _, h', h⟩⟩
            · cases h
            · cases h'; cases h with
              | modelled e1 e2 => cases e1; rw [hv] at e2; cases e2; show ((.ok ⟨⟩, _) : Except PyErr PUnit × TA Loc YoYResult σ) = _; simp only [← hp, ← h1, ← h2]

/-- the clear-sky temperatures of the object -/
theorem clearTcell_iff {s : TA Loc YoYResult σ} {loc : Option Loc} {ta tc : Option Series} {g t : Series} (h1 : s.location = some loc)
    (h2 : s.tambCs = some ta) (h3 : s.tcellCs = some tc) :
    (∃ u, clearskyTcell env s g s = (.ok t, u)) ↔ Spec.ClearCell env loc g ta tc t := by
  cases tc with
  | some tc =>
    rw [clearskyTcell_stored s h3]
    constructor
    · rintro ⟨u, h⟩; cases h; exact .given
    · intro h; cases h; exact ⟨s, rfl⟩
  | none =>
    have amb : ∀ ta', (∃ u, clearskyTambient env s g s = (.ok ta', u)) ↔ Spec.ClearAmbient env loc g ta ta' := by
      intro ta'
      cases ta with
      | some ta =>
        rw [clearskyTambient_stored s h2]
        constructor
        · rintro ⟨u, h⟩; cases h; exact .given
        · intro h; cases h; exact ⟨s, rfl⟩
      | none =>
        cases loc with
        | none =>
          constructor
          · rintro ⟨u, h⟩
            unfold clearskyTambient at h
            rw [h1, h2] at h
            cases h
          · intro h; cases h with
            | modelled e1 _ => cases e1
        | some l =>
          constructor
          · rintro ⟨u, h⟩
            unfold clearskyTambient at h
            rw [h1, h2] at h
            change (call (env.clearskyTamb l g) >>= _ : M Loc YoYResult σ Series) s = _ at h
            replace h := bind_ok.mp h
            obtain ⟨v, w, h4, h⟩ := h
            obtain ⟨h5, -⟩ := call_ok h4
            cases h
            exact .modelled rfl h5
          · intro h; cases h with
            | modelled e1 e2 => cases e1; exact ⟨_, clearskyTambient_computed s h2 h1 e2⟩
    constructor
    · rintro ⟨u, h⟩
      unfold clearskyTcell at h
      rw [h3] at h
      change (clearskyTambient env s g >>= _ : M Loc YoYResult σ Series) s = _ at h
      replace h := bind_ok.mp h
      obtain ⟨ta', w, h4, h⟩ := h
      replace h := bind_ok.mp h
      obtain ⟨v, w', h5, h⟩ := h
      obtain ⟨h6, -⟩ := call_ok h5
      cases h
      exact .computed ((amb _).mp ⟨w, h4⟩) h6
    · intro h
      cases h with
      | computed e1 e2 =>
        obtain ⟨w, hw⟩ := (amb _).mpr e1
        exact ⟨_, clearskyTcell_computed h3 hw e2⟩

/-- what computing the clear-sky temperatures leaves -/
theorem clearTcell_leaves {s u : TA Loc YoYResult σ} {g t : Series} (h : clearskyTcell env s g s = (.ok t, u)) :
    u.tcellCs = some (some t) ∧ u.poaCs = s.poaCs ∧ u.pvPower = s.pvPower ∧ u.poa = s.poa ∧ u.params = s.params ∧
      u.paramsAgg = s.paramsAgg := by
  unfold clearskyTcell at h
  cases h3 : s.tcellCs with
  | none => rw [h3] at h; cases h
  | some tc =>
    rw [h3] at h
    cases tc with
    | some tc => cases h; exact ⟨h3, rfl, rfl, rfl, rfl, rfl⟩
    | none =>
      change (clearskyTambient env s g >>= _ : M Loc YoYResult σ Series) s = _ at h
      replace h := bind_ok.mp h
      obtain ⟨ta', w, h4, h⟩ := h
      replace h := bind_ok.mp h
      obtain ⟨v, w', h5, h⟩ := h
      obtain ⟨-, rfl⟩ := call_ok h5
      cases h
      rcases clearskyTambient_run h4 with ⟨rfl, -⟩ | rfl <;> exact ⟨rfl, rfl, rfl, rfl, rfl, rfl⟩

/-- **C136 (a new clear-sky analysis).** After a successful `set_clearsky` with the default filters, the preprocessing of a clear-sky
analysis succeeds exactly if irradiance was given; clear-sky irradiance was given or can be modelled for the location; the clear-sky
cell temperature was given or can be computed from the ambient temperature that was given or can be modelled for the location (also
if expected power is used, which does not need it); the normalization succeeds; power was given and the clipping filter runs on it;
and the clear-sky filter runs. -/
theorem C136_clearsky (power : Option Series) (energy : Series) (poa tcell tamb expected : Option Series) (daily : Bool)
    (loc : Option Loc) {cs tcs tas cs' tcs' tas' : Option Series} (h1 : interpOpt (degradationEnv n k rest) cs = .ok cs')
    (h2 : interpOpt (degradationEnv n k rest) tcs = .ok tcs') (h3 : interpOpt (degradationEnv n k rest) tas = .ok tas') :
    (∃ s', clearskyPreprocess (degradationEnv n k rest)
        (setClearsky (degradationEnv n k rest) loc cs tcs tas (init power energy poa tcell tamb expected daily)).2 = (.ok (), s')) ↔
      ∃ p g tc r P m q, poa = some p ∧ Spec.ClearIrradiance (degradationEnv n k rest) loc p cs' g ∧
        Spec.ClearCell (degradationEnv n k rest) loc g tas' tcs' tc ∧
        Spec.ClearNormalized (degradationEnv n k rest) energy g tc expected r ∧
        power = some P ∧ clipMask n.predict (n.clipArgs "") P = .ok m ∧ rest.clearskyF "" p g = .ok q := by
  have hset : ∀ s : TA Loc YoYResult σ, (setClearsky (degradationEnv n k rest) loc cs tcs tas s).2 = { s with
      location := some loc
      tilt := true
      poaCs := some cs'
      tcellCs := some tcs'
      tambCs := some tas' } := by
    intro s
    unfold setClearsky
    rw [h1, h2, h3]
    rfl
  rw [hset]
  generalize hs : ({ (init power energy poa tcell tamb expected daily : TA Loc YoYResult σ) with
      location := some loc
      tilt := true
      poaCs := some cs'
      tcellCs := some tcs'
      tambCs := some tas' } : TA Loc YoYResult σ) = s
  have e1 : s.poa = poa := by rw [← hs]; rfl
  have e2 : s.pvPower = power := by rw [← hs]; rfl
  have e5 : s.powerExpected = expected := by rw [← hs]; rfl
  have e6 : s.pvEnergy = energy := by rw [← hs]; rfl
  have e7 : s.paramsAgg = ⟨validFilterParamsAggregated, defaultFilterParamsAggregated⟩ := by rw [← hs]; rfl
  have e8 : s.params.items = if expected.isSome ∧ tcell = none then Dict.del defaultFilterParams "tcell_filter"
      else defaultFilterParams := by rw [← hs]; rfl
  have l1 : s.location = some loc := by rw [← hs]
  have l2 : s.tilt = true := by rw [← hs]
  have l3 : s.poaCs = some cs' := by rw [← hs]
  have l4 : s.tcellCs = some tcs' := by rw [← hs]
  have l5 : s.tambCs = some tas' := by rw [← hs]
  clear hs hset h1 h2 h3
  have hpar : s.params.items = defaultFilterParams ∨ s.params.items = Dict.del defaultFilterParams "tcell_filter" := by
    rw [e8]; split_ifs
    · exact .inr rfl
    · exact .inl rfl
  -- what happens once the clear-sky irradiance is there
  have tail : ∀ g, (∃ s', (do
        let s ← self
        let cs ← attr s.poaCs
        let poaCs ← attr cs
        let tcell ← clearskyTcell (degradationEnv n k rest) s poaCs
        let r ← clearskyNormalize (degradationEnv n k rest) s poaCs tcell
        finish (degradationEnv n k rest) r.1 r.2 .clearsky : M Loc YoYResult σ Unit)
        { s with poaCs := some (some g) } = (.ok (), s')) ↔
      ∃ p tc r P m q, poa = some p ∧ Spec.ClearCell (degradationEnv n k rest) loc g tas' tcs' tc ∧
        Spec.ClearNormalized (degradationEnv n k rest) energy g tc expected r ∧
        power = some P ∧ clipMask n.predict (n.clipArgs "") P = .ok m ∧ rest.clearskyF "" p g = .ok q := by
    intro g
    generalize hv : ({ s with poaCs := some (some g) } : TA Loc YoYResult σ) = v
    have v1 : v.location = some loc := by rw [← hv]; exact l1
    have v2 : v.poaCs = some (some g) := by rw [← hv]
    have v4 : v.tcellCs = some tcs' := by rw [← hv]; exact l4
    have v5 : v.tambCs = some tas' := by rw [← hv]; exact l5
    have w1 : v.poa = poa := by rw [← hv]; exact e1
    have w2 : v.pvPower = power := by rw [← hv]; exact e2
    have w5 : v.powerExpected = expected := by rw [← hv]; exact e5
    have w6 : v.pvEnergy = energy := by rw [← hv]; exact e6
    have w7 : v.paramsAgg = ⟨validFilterParamsAggregated, defaultFilterParamsAggregated⟩ := by rw [← hv]; exact e7
    have w8 : v.params.items = defaultFilterParams ∨ v.params.items = Dict.del defaultFilterParams "tcell_filter" := by
      rw [← hv]; exact hpar
    have norm : ∀ tc (u : TA Loc YoYResult σ) r w, clearskyNormalize (degradationEnv n k rest) v g tc u = (.ok r, w) ↔
        w = u ∧ Spec.ClearNormalized (degradationEnv n k rest) energy g tc expected r := by
      intro tc u r w
      unfold clearskyNormalize
      rw [w5, w6]
      cases expected with
      | none =>
        constructor
        · intro h; obtain ⟨h1, h2⟩ := call_ok h; exact ⟨h2, .pvwatts h1⟩
        · rintro ⟨rfl, h⟩; cases h with
          | pvwatts h => show (call _ : M Loc YoYResult σ _) _ = _; rw [h]; rfl
      | some pe =>
        constructor
        · intro h; obtain ⟨h1, h2⟩ := call_ok h; exact ⟨h2, .expected h1⟩
        · rintro ⟨rfl, h⟩; cases h with
          | expected h => show (call _ : M Loc YoYResult σ _) _ = _; rw [h]; rfl
    have fin : ∀ tc u r, clearskyTcell (degradationEnv n k rest) v g v = (.ok tc, u) →
        Spec.ClearNormalized (degradationEnv n k rest) energy g tc expected r →
        ((∃ s', finish (degradationEnv n k rest) r.1 r.2 .clearsky u = (.ok (), s')) ↔
          ∃ P m p q, power = some P ∧ clipMask n.predict (n.clipArgs "") P = .ok m ∧ poa = some p ∧ rest.clearskyF "" p g = .ok q) := by
      intro tc u r h hn
      obtain ⟨c1, c2, c3, c4, c5, c6⟩ := clearTcell_leaves h
      rw [C136_finish (clear_keys hn), filters_clear (c2.trans v2) c1 (by rw [c5]; exact w8), c3, c4, c6, w2, w1, w7]
      exact and_iff_left aggregated_fresh
    have hstep : ∀ x, (do
        let s ← self
        let cs ← attr s.poaCs
        let poaCs ← attr cs
        let tcell ← clearskyTcell (degradationEnv n k rest) s poaCs
        let r ← clearskyNormalize (degradationEnv n k rest) s poaCs tcell
        finish (degradationEnv n k rest) r.1 r.2 .clearsky : M Loc YoYResult σ Unit) v = x ↔
        (do
        let tcell ← clearskyTcell (degradationEnv n k rest) v g
        let r ← clearskyNormalize (degradationEnv n k rest) v g tcell
        finish (degradationEnv n k rest) r.1 r.2 .clearsky : M Loc YoYResult σ Unit) v = x := by
      intro x
      rw [bind_run_ok (self_run v), bind_run_ok (show (attr v.poaCs : M Loc YoYResult σ _) v = (.ok (some g), v) by rw [v2]; rfl),
        bind_run_ok (show (attr (some g) : M Loc YoYResult σ _) v = (.ok g, v) from rfl)]
    constructor
    · rintro ⟨s', h⟩
      rw [hstep] at h
      replace h := bind_ok.mp h
      obtain ⟨tc, u, h1, h⟩ := h
      replace h := bind_ok.mp h
      obtain ⟨r, w, h2, h⟩ := h
      obtain ⟨rfl, hn⟩ := (norm tc u r w).mp h2
      obtain ⟨P, m, p, q, f1, f2, f3, f4⟩ := (fin tc w r h1 hn).mp ⟨s', h⟩
      exact ⟨p, tc, r, P, m, q, f3, (clearTcell_iff v1 v5 v4).mp ⟨w, h1⟩, hn, f1, f2, f4⟩
    · rintro ⟨p, tc, r, P, m, q, f3, ht, hn, f1, f2, f4⟩
      obtain ⟨u, hu⟩ := (clearTcell_iff v1 v5 v4).mpr ht
      obtain ⟨s', hs'⟩ := (fin tc u r hu hn).mpr ⟨P, m, p, q, f1, f2, f3, f4⟩
      refine ⟨s', ?_⟩
      rw [hstep, bind_run_ok hu, bind_run_ok ((norm tc u r u).mpr ⟨rfl, hn⟩)]
      exact hs'
  constructor
  · rintro ⟨s', h⟩
    unfold clearskyPreprocess at h
    replace h := bind_ok.mp h
    obtain ⟨_, u, h1, h⟩ := h
    obtain ⟨g, rfl, hg⟩ := (ensureClearsky_iff l1 l2 l3).mp h1
    obtain ⟨p, tc, r, P, m, q, f3, ht, hn, f1, f2, f4⟩ := (tail g).mp ⟨s', h⟩
    refine ⟨p, g, tc, r, P, m, q, f3, ?_, ht, hn, f1, f2, f4⟩
    rcases hg with rfl | ⟨-, p', hp', hg⟩
    · exact .given
    · rw [e1, f3] at hp'; cases hp'; exact hg
  · rintro ⟨p, g, tc, r, P, m, q, f3, hg, ht, hn, f1, f2, f4⟩
    obtain ⟨s', h⟩ := (tail g).mpr ⟨p, tc, r, P, m, q, f3, ht, hn, f1, f2, f4⟩
    refine ⟨s', ?_⟩
    unfold clearskyPreprocess
    rw [bind_run_ok ((ensureClearsky_iff l1 l2 l3).mpr ⟨g, rfl, ?_⟩)]
    · exact h
    · cases hg with
      | given => exact .inl rfl
      | modelled a b => exact .inr ⟨rfl, p, e1.trans f3, .modelled a b⟩

/-- **C136 (regular measurements, clear sky).** Power recorded at a regular step, more than ten readings with at least one valid
value, and clear-sky irradiance and cell temperature given at the same times: the preprocessing of a clear-sky analysis with the
default filters and the logic clipping filter succeeds exactly if measured irradiance was given on which the clear-sky filter runs,
and the clear-sky model power can be computed for at least one reading. -/
theorem C136_clearsky_regular {t0 f : Int} (hf : 0 < f) (m : Nat) (hm : 11 ≤ m) (c g T : Nat → Cell)
    (hc : ∃ j, j < m ∧ c j ≠ none)
    {energy : Series} (he : energyFromPower (regular t0 f m c) none none .rightLabeled none = .ok energy)
    (hfr : n.freq (energy.map Prod.fst) = some f)
    {mounting : String} {cutoff : ℚ} {roll : Option Nat} (hclip : n.clipArgs "" = .logic mounting cutoff roll)
    (hmount : mounting = "fixed" ∨ mounting = "single_axis_tracking") (poa tcell tamb : Option Series) (daily : Bool)
    (loc : Option Loc) {cs tcs : Series} (h1 : rest.interpolate cs = .ok (regular t0 f m g))
    (h2 : rest.interpolate tcs = .ok (regular t0 f m T)) :
    (∃ s', clearskyPreprocess (degradationEnv n k rest) (setClearsky (degradationEnv n k rest) loc (some cs) (some tcs) none
        (init (some (regular t0 f m c)) energy poa tcell tamb none daily)).2 = (.ok (), s')) ↔
      (∃ p q, poa = some p ∧ rest.clearskyF "" p (regular t0 f m g) = .ok q) ∧
      ∃ j, j < m ∧ g j ≠ none ∧ (n.gamma = none ∨ T j ≠ none) := by
  have i1 : interpOpt (degradationEnv n k rest) (some cs) = .ok (some (regular t0 f m g)) := by
    show (rest.interpolate cs).map some = _
    rw [h1]; rfl
  have i2 : interpOpt (degradationEnv n k rest) (some tcs) = .ok (some (regular t0 f m T)) := by
    show (rest.interpolate tcs).map some = _
    rw [h2]; rfl
  rw [C136_clearsky _ _ _ _ _ _ _ _ i1 i2 (show interpOpt (degradationEnv n k rest) none = .ok none from rfl)]
  obtain ⟨m, rfl⟩ : ∃ l, m = l + 1 + 2 := ⟨m - 3, by omega⟩
  have hE := energy_regular (t0 := t0) hf (m + 1) c hc none
  rw [he] at hE
  cases hE
  obtain ⟨v, hv⟩ := clip_regular (n := n) (t0 := t0) hf (m + 1 + 2) hm c hclip hmount
  rw [← pvwatts_regular_iff hf m c g T hfr]
  constructor
  · rintro ⟨p, g', tc, r, P, m', q, hp, hg, ht, hr, -, -, hq⟩
    cases hg
    cases ht
    cases hr with
    | pvwatts hr => exact ⟨⟨p, q, hp, hq⟩, r, hr⟩
  · rintro ⟨⟨p, q, hp, hq⟩, r, hr⟩
    exact ⟨p, _, _, r, _, v, q, hp, .given, .given, .pvwatts hr, rfl, hv, hq⟩

/-! ### concrete cases -/

/-- interpolation of series already at the times of the measurements, and a clear-sky filter that accepts equal readings -/
def exClear : Env Unit YoYResult Unit :=
  { exNothing with
    interpolate := fun x => .ok x
    clearskyF := fun _ x y => .ok (x.zipWith (fun r q => (r.1, decide (r.2 = q.2))) y) }

/-- clear-sky irradiance from the third, temperature up to the fifth reading: the analysis runs -/
example : ∃ energy s', clearskyPreprocess (degradationEnv exLogic exKeywords exClear)
    (setClearsky (degradationEnv exLogic exKeywords exClear) none
      (some (regular 0 hour 12 fun j => if 2 ≤ j then some 800 else none))
      (some (regular 0 hour 12 fun j => if j < 5 then some 30 else none)) none
      (init (some exHourly) energy (some exHourly) none none none false)).2 = (.ok (), s') := by
  refine ⟨_, (C136_clearsky_regular (by decide) 12 (by decide) (fun _ => some 1) _ _ ⟨0, by decide, by decide⟩
    (energy_regular (by decide) 10 (fun _ => some 1) ⟨0, by decide, by decide⟩ none) rfl rfl (.inl rfl) _ _ none false none rfl rfl).mpr
    ⟨⟨_, _, rfl, rfl⟩, 3, by decide, by decide, .inr (by decide)⟩⟩

/-- without measured irradiance it does not -/
example : ∃ energy, ¬ ∃ s', clearskyPreprocess (degradationEnv exLogic exKeywords exClear)
    (setClearsky (degradationEnv exLogic exKeywords exClear) none
      (some (regular 0 hour 12 fun j => if 2 ≤ j then some 800 else none))
      (some (regular 0 hour 12 fun j => if j < 5 then some 30 else none)) none
      (init (some exHourly) energy none none none none false)).2 = (.ok (), s') := by
  obtain ⟨energy, he⟩ : ∃ e, energyFromPower exHourly none none .rightLabeled none = .ok e :=
    ⟨_, energy_regular (by decide) 10 (fun _ => some 1) ⟨0, by decide, by decide⟩ none⟩
  refine ⟨energy, fun h => ?_⟩
  obtain ⟨⟨p, q, h, -⟩, -⟩ := (C136_clearsky_regular (by decide) 12 (by decide) (fun _ => some 1) _ _ ⟨0, by decide, by decide⟩
    he rfl rfl (.inl rfl) _ _ none false none rfl rfl).mp h
  cases h

end Verif.Chains
