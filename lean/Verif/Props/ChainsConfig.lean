import Verif.Props.ChainsMemory

/-! # C144: the filters of an analysis are those the user configured -/

namespace Verif.Chains
variable {Loc ρ σ : Type}

/-! ## specification -/

/-- two masks on the same timestamps with the same verdicts, no verdict counting as False -/
def Spec.SameMask (m m' : List (Int × Option Bool)) : Prop :=
  List.Forall₂ (fun r r' => r.1 = r'.1 ∧ r.2.getD false = r'.2.getD false) m m'

/-- two dicts with the same known filters and the same entries in the same order, up to missing verdicts of masks -/
def Spec.SameFilters (d d' : FilterDict FVal) : Prop :=
  d.valid = d'.valid ∧ List.Forall₂ (fun a b : String × FVal => a.1 = b.1 ∧
    (a.2 = b.2 ∨ ∃ m m', a.2 = .mask m ∧ b.2 = .mask m' ∧ Spec.SameMask m m')) d.items d'.items

theorem sameMask_of_fill : ∀ {m m' : List (Int × Option Bool)}, fillAdHoc m = fillAdHoc m' → Spec.SameMask m m' := by
  intro m
  induction m with
  | nil =>
    intro m' h
    cases m' with
    | nil => exact .nil
    | cons r m' => cases h
  | cons r m ih =>
    intro m' h
    cases m' with
    | nil => cases h
    | cons r' m' =>
      change (r.1, some (r.2.getD false)) :: fillAdHoc m = (r'.1, some (r'.2.getD false)) :: fillAdHoc m' at h
      rw [List.cons.injEq, Prod.mk.injEq, Option.some.injEq] at h
      exact .cons h.1 (ih h.2)

theorem sameFilters_of_same {d d' : FilterDict FVal} (h : FillSame d d') : Spec.SameFilters d d' := by
  obtain ⟨hv, hi⟩ := h
  refine ⟨hv, ?_⟩
  generalize d.items = x at hi
  generalize d'.items = y at hi
  induction x generalizing y with
  | nil =>
    cases y with
    | nil => exact .nil
    | cons r y => cases hi
  | cons a x ih =>
    cases y with
    | nil => cases hi
    | cons b y =>
      change (a.1, normV a.2) :: normItems x = (b.1, normV b.2) :: normItems y at hi
      rw [List.cons.injEq, Prod.mk.injEq] at hi
      refine .cons ⟨hi.1.1, ?_⟩ (ih y hi.2)
      have hab := hi.1.2
      cases ha : a.2 with
      | none => rw [ha] at hab; cases hb : b.2 <;> rw [hb] at hab <;> simp [normV] at hab ⊢
      | kwargs kw => rw [ha] at hab; cases hb : b.2 <;> rw [hb] at hab <;> simp_all [normV]
      | mask m =>
        rw [ha] at hab
        cases hb : b.2 with
        | mask m' =>
          rw [hb] at hab
          simp only [normV, FVal.mask.injEq] at hab
          exact .inr ⟨m, m', rfl, rfl, sameMask_of_fill hab⟩
        | _ => rw [hb] at hab; simp [normV] at hab

/-- **C144 (new object).** Known are the eight filters for single values and the five for aggregated ones. Active in a new object
are those for the normalized power, the irradiance, the cell temperature, clipping and clear sky and the window filter for
aggregated values, all with default parameters; the temperature filter is off if the expected power was given without cell
temperature. -/
theorem C144_new (power : Option Series) (energy : Series) (poa tcell tamb expected : Option Series) (daily : Bool) :
    let s : TA Loc ρ σ := init power energy poa tcell tamb expected daily
    (∀ name, name ∈ s.params.valid ↔ name = "normalized_filter" ∨ name = "poa_filter" ∨ name = "tcell_filter" ∨ name = "clip_filter" ∨
      name = "hour_angle_filter" ∨ name = "clearsky_filter" ∨ name = "sensor_clearsky_filter" ∨ name = "ad_hoc_filter") ∧
    (∀ name, name ∈ s.paramsAgg.valid ↔ name = "two_way_window_filter" ∨ name = "insolation_filter" ∨ name = "hampel_filter" ∨
      name = "directional_tukey_filter" ∨ name = "ad_hoc_filter") ∧
    (∀ name v, s.params.items.get? name = some v ↔
      (name = "normalized_filter" ∨ name = "poa_filter" ∨ name = "tcell_filter" ∧ (expected = none ∨ tcell ≠ none) ∨
        name = "clip_filter" ∨ name = "clearsky_filter") ∧ v = .kwargs "" ∨ name = "ad_hoc_filter" ∧ v = .none) ∧
    ∀ name v, s.paramsAgg.items.get? name = some v ↔
      name = "two_way_window_filter" ∧ v = .kwargs "" ∨ name = "ad_hoc_filter" ∧ v = .none := by
  intro s
  have e3 : s.params.items = if expected.isSome ∧ tcell = none then Dict.del defaultFilterParams "tcell_filter" else defaultFilterParams := rfl
  have e4 : s.paramsAgg.items = defaultFilterParamsAggregated := rfl
  refine ⟨fun name => ?_, fun name => ?_, fun name v => ?_, fun name v => ?_⟩
  · show name ∈ validFilterParams ↔ _
    simp [validFilterParams]
  · show name ∈ validFilterParamsAggregated ↔ _
    simp [validFilterParamsAggregated]
  · have hd : ∀ name v, defaultFilterParams.get? name = some v ↔
        (name = "normalized_filter" ∨ name = "poa_filter" ∨ name = "tcell_filter" ∨ name = "clip_filter" ∨ name = "clearsky_filter") ∧
          v = .kwargs "" ∨ name = "ad_hoc_filter" ∧ v = .none := by
      intro name v
      simp only [defaultFilterParams, Dict.get?]
      split_ifs with h1 h2 h3 h4 h5 h6 <;> first | subst name | skip
      all_goals simp [eq_comm]
      tauto
    rw [e3]
    split_ifs with h
    · obtain ⟨x, hx⟩ := Option.isSome_iff_exists.mp h.1
      rw [Dict.get?_del]
      by_cases hn : name = "tcell_filter"
      · subst hn
        rw [if_pos rfl, hx, h.2]
        simp
      · rw [if_neg hn, hd]
        simp only [hn, false_and, false_or]
    · rw [hd]
      have : expected = none ∨ tcell ≠ none := by
        by_cases ht : tcell = none
        · left
          cases expected with
          | none => rfl
          | some x => exact absurd ⟨rfl, ht⟩ h
        · exact .inr ht
      simp only [this, and_true]
  · rw [e4]
    simp only [defaultFilterParamsAggregated, Dict.get?]
    split_ifs with h1 h2 <;> first | subst name | skip
    all_goals simp [eq_comm]
    tauto

theorem setting_valid (env : Env Loc ρ σ) (k : Call Loc) (hk : Spec.isFilterSetting k = true) (s : TA Loc ρ σ)
    (h : Spec.Known s.params.valid s.params.items) (h' : Spec.Known s.paramsAgg.valid s.paramsAgg.items) :
    ((k.run env s).2.params.valid = s.params.valid ∧ Spec.Known s.params.valid (k.run env s).2.params.items) ∧
    (k.run env s).2.paramsAgg.valid = s.paramsAgg.valid ∧ Spec.Known s.paramsAgg.valid (k.run env s).2.paramsAgg.items := by
  cases k with
  | analysis => cases hk
  | setClearsky => cases hk
  | editFilterParams op => exact ⟨FilterDict.step_known h op, rfl, h'⟩
  | editFilterParamsAggregated op => exact ⟨⟨rfl, h⟩, FilterDict.step_known h' op⟩
  | setFilterParams d =>
    show ((Chains.setFilterParams d s).2.params.valid = _ ∧ Spec.Known _ (Chains.setFilterParams d s).2.params.items) ∧
      (Chains.setFilterParams d s).2.paramsAgg.valid = _ ∧ Spec.Known _ (Chains.setFilterParams d s).2.paramsAgg.items
    unfold Chains.setFilterParams
    cases d with
    | none => exact ⟨⟨rfl, h⟩, rfl, h'⟩
    | some d =>
      rw [bind_run_ok (self_run s), bind_run_ok (show (required (some d) : M Loc ρ σ _) s = (.ok d, s) from rfl)]
      cases hc : FilterDict.construct s.params.valid d with
      | error e => exact ⟨⟨rfl, h⟩, rfl, h'⟩
      | ok new =>
        have := (FilterDict.C52_construct s.params.valid d).2.2 new hc
        exact ⟨⟨this.1, this.2.1⟩, rfl, h'⟩
  | setFilterParamsAggregated d =>
    show ((Chains.setFilterParamsAggregated d s).2.params.valid = _ ∧ Spec.Known _ (Chains.setFilterParamsAggregated d s).2.params.items) ∧
      (Chains.setFilterParamsAggregated d s).2.paramsAgg.valid = _ ∧ Spec.Known _ (Chains.setFilterParamsAggregated d s).2.paramsAgg.items
    unfold Chains.setFilterParamsAggregated
    cases d with
    | none => exact ⟨⟨rfl, h⟩, rfl, h'⟩
    | some d =>
      rw [bind_run_ok (self_run s), bind_run_ok (show (required (some d) : M Loc ρ σ _) s = (.ok d, s) from rfl)]
      cases hc : FilterDict.construct s.paramsAgg.valid d with
      | error e => exact ⟨⟨rfl, h⟩, rfl, h'⟩
      | ok new =>
        have := (FilterDict.C52_construct s.paramsAgg.valid d).2.2 new hc
        exact ⟨⟨rfl, h⟩, this.1, this.2.1⟩

theorem known_of_same {d d' : FilterDict FVal} (h : Spec.SameFilters d d') (hk : Spec.Known d.valid d.items) :
    Spec.Known d.valid d'.items := by
  have hkeys : d.items.map Prod.fst = d'.items.map Prod.fst := by
    have := h.2
    generalize d.items = x at this
    generalize d'.items = y at this
    induction this with
    | nil => rfl
    | cons hab _ ih => rw [List.map_cons, List.map_cons, ih, hab.1]
  refine ⟨fun p hp => ?_, by rw [← hkeys]; exact hk.2⟩
  have : p.1 ∈ d.items.map Prod.fst := by rw [hkeys]; exact List.mem_map_of_mem hp
  obtain ⟨q, hq, e⟩ := List.mem_map.mp this
  rw [← e]
  exact hk.1 q hq

/-- **C144 (histories).** After any history of calls the two filter dictionaries are those the calls that change filters alone would
have produced: analyses and `set_clearsky` do not add, remove or change a filter, except that missing verdicts of a mask are filled. -/
theorem C144_history (env : Env Loc ρ σ) (s : TA Loc ρ σ) (calls : List (Call Loc)) :
    Spec.SameFilters (runAll env s (calls.filter Spec.isFilterSetting)).params (runAll env s calls).params ∧
    Spec.SameFilters (runAll env s (calls.filter Spec.isFilterSetting)).paramsAgg (runAll env s calls).paramsAgg :=
  let h := base_history calls (.refl env s)
  ⟨sameFilters_of_same h.params, sameFilters_of_same h.paramsAgg⟩

theorem history_known (env : Env Loc ρ σ) (calls : List (Call Loc)) (hcalls : ∀ k ∈ calls, Spec.isFilterSetting k = true) :
    ∀ s : TA Loc ρ σ, Spec.Known s.params.valid s.params.items → Spec.Known s.paramsAgg.valid s.paramsAgg.items →
    ((runAll env s calls).params.valid = s.params.valid ∧ Spec.Known s.params.valid (runAll env s calls).params.items) ∧
    (runAll env s calls).paramsAgg.valid = s.paramsAgg.valid ∧ Spec.Known s.paramsAgg.valid (runAll env s calls).paramsAgg.items := by
  induction calls with
  | nil => exact fun s h h' => ⟨⟨rfl, h⟩, rfl, h'⟩
  | cons k calls ih =>
    intro s h h'
    obtain ⟨⟨a1, a2⟩, a3, a4⟩ := setting_valid env k (hcalls k (List.mem_cons_self ..)) s h h'
    have := ih (fun k hk => hcalls k (List.mem_cons_of_mem _ hk)) (k.run env s).2 (by rw [a1]; exact a2) (by rw [a3]; exact a4)
    rw [a1, a3] at this
    exact this

/-- **C144 (known filters).** Whatever calls follow, the same filters are known and both dictionaries hold only known ones, each at
most once. -/
theorem C144_known (env : Env Loc ρ σ) (power : Option Series) (energy : Series) (poa tcell tamb expected : Option Series) (daily : Bool)
    (calls : List (Call Loc)) :
    let s : TA Loc ρ σ := init power energy poa tcell tamb expected daily
    let u := runAll env s calls
    (u.params.valid = s.params.valid ∧ Spec.Known s.params.valid u.params.items) ∧
    u.paramsAgg.valid = s.paramsAgg.valid ∧ Spec.Known s.paramsAgg.valid u.paramsAgg.items := by
  intro s u
  have hs : Spec.Known s.params.valid s.params.items := by
    show Spec.Known validFilterParams (if _ then _ else _)
    unfold Spec.Known
    split_ifs <;> decide
  have hs' : Spec.Known s.paramsAgg.valid s.paramsAgg.items := by
    show Spec.Known validFilterParamsAggregated defaultFilterParamsAggregated
    unfold Spec.Known
    decide
  obtain ⟨⟨a1, a2⟩, a3, a4⟩ := history_known env (calls.filter Spec.isFilterSetting) (fun k hk => (List.mem_filter.mp hk).2) s hs hs'
  obtain ⟨b1, b2⟩ := C144_history env s calls
  have c1 := known_of_same b1 (by rw [a1]; exact a2)
  have c2 := known_of_same b2 (by rw [a3]; exact a4)
  rw [a1] at c1
  rw [a3] at c2
  exact ⟨⟨b1.1.symm.trans a1, c1⟩, b2.1.symm.trans a3, c2⟩

/-- **C144 (assignment).** Assigning to `filter_params` replaces all filters by those given, the last value given for a name counting;
with an unknown name it raises KeyError, with anything but a dict ValueError, and then nothing changes. -/
theorem C144_assign (s : TA Loc ρ σ) (d : Option (List (String × FVal))) :
    (d = none → setFilterParams d s = (.error .valueError, s)) ∧
    (∀ kv, d = some kv → (∃ p ∈ kv, p.1 ∉ s.params.valid) → setFilterParams d s = (.error .keyError, s)) ∧
    ∀ kv, d = some kv → (∀ p ∈ kv, p.1 ∈ s.params.valid) → ∃ new, setFilterParams d s = (.ok (), { s with params := new }) ∧
      new.valid = s.params.valid ∧
      ∀ name, new.items.get? name = (kv.reverse.find? fun p => decide (p.1 = name)).map Prod.snd := by
  refine ⟨?_, ?_, ?_⟩
  · rintro rfl; rfl
  · rintro kv rfl h
    have := (FilterDict.C52_construct s.params.valid kv).2.1 h
    unfold setFilterParams
    rw [bind_run_ok (self_run s), bind_run_ok (show (required (some kv) : M Loc ρ σ _) s = (.ok kv, s) from rfl), this]
    rfl
  · rintro kv rfl h
    obtain ⟨c1, -, c3⟩ := FilterDict.C52_construct s.params.valid kv
    obtain ⟨new, hn⟩ := c1.mpr h
    obtain ⟨h1, -, h3⟩ := c3 new hn
    refine ⟨new, ?_, h1, h3⟩
    unfold setFilterParams
    rw [bind_run_ok (self_run s), bind_run_ok (show (required (some kv) : M Loc ρ σ _) s = (.ok kv, s) from rfl), hn]
    rfl

/-- **C144 (assignment, aggregated filters).** The same for `filter_params_aggregated`. -/
theorem C144_assign_aggregated (s : TA Loc ρ σ) (d : Option (List (String × FVal))) :
    (d = none → setFilterParamsAggregated d s = (.error .valueError, s)) ∧
    (∀ kv, d = some kv → (∃ p ∈ kv, p.1 ∉ s.paramsAgg.valid) → setFilterParamsAggregated d s = (.error .keyError, s)) ∧
    ∀ kv, d = some kv → (∀ p ∈ kv, p.1 ∈ s.paramsAgg.valid) → ∃ new,
      setFilterParamsAggregated d s = (.ok (), { s with paramsAgg := new }) ∧ new.valid = s.paramsAgg.valid ∧
      ∀ name, new.items.get? name = (kv.reverse.find? fun p => decide (p.1 = name)).map Prod.snd := by
  refine ⟨?_, ?_, ?_⟩
  · rintro rfl; rfl
  · rintro kv rfl h
    have := (FilterDict.C52_construct s.paramsAgg.valid kv).2.1 h
    unfold setFilterParamsAggregated
    rw [bind_run_ok (self_run s), bind_run_ok (show (required (some kv) : M Loc ρ σ _) s = (.ok kv, s) from rfl), this]
    rfl
  · rintro kv rfl h
    obtain ⟨c1, -, c3⟩ := FilterDict.C52_construct s.paramsAgg.valid kv
    obtain ⟨new, hn⟩ := c1.mpr h
    obtain ⟨h1, -, h3⟩ := c3 new hn
    refine ⟨new, ?_, h1, h3⟩
    unfold setFilterParamsAggregated
    rw [bind_run_ok (self_run s), bind_run_ok (show (required (some kv) : M Loc ρ σ _) s = (.ok kv, s) from rfl), hn]
    rfl

theorem step_valid {V : Type} (d : FilterDict V) (op : FilterDict.Op V) : (FilterDict.step d op).1.valid = d.valid := by
  cases op with
  | setItem k v => unfold FilterDict.step FilterDict.setItem; by_cases h : k ∈ d.valid <;> simp [h]
  | update a =>
    unfold FilterDict.step FilterDict.update
    simp only
    generalize ((Dict.setAll [] (a.pairs ++ a.kwargs)).all fun p => decide (p.1 ∈ d.valid)) = b
    cases b <;> rfl
  | delItem k => unfold FilterDict.step FilterDict.delItem; by_cases h : d.items.has k = true <;> simp [h]
  | clear => rfl
  | pickle =>
    unfold FilterDict.step FilterDict.pickled
    cases h : FilterDict.construct d.valid d.items with
    | error e => rfl
    | ok d' => exact ((FilterDict.C52_construct d.valid d.items).2.2 d' h).1

theorem call_valid (env : Env Loc ρ σ) (k : Call Loc) (s : TA Loc ρ σ) :
    (k.run env s).2.params.valid = s.params.valid ∧ (k.run env s).2.paramsAgg.valid = s.paramsAgg.valid := by
  cases k with
  | analysis c a y z =>
    have := base_after c a y z (Base.refl env s)
    exact ⟨this.params.1.symm, this.paramsAgg.1.symm⟩
  | setClearsky loc p tc ta =>
    show (Chains.setClearsky env loc p tc ta s).2.params.valid = _ ∧ (Chains.setClearsky env loc p tc ta s).2.paramsAgg.valid = _
    rcases setClearsky_run env loc p tc ta with ⟨e, he⟩ | ⟨p', tc', ta', he⟩ <;> rw [he] <;> exact ⟨rfl, rfl⟩
  | editFilterParams op => exact ⟨step_valid _ op, rfl⟩
  | editFilterParamsAggregated op => exact ⟨rfl, step_valid _ op⟩
  | setFilterParams d =>
    show (Chains.setFilterParams d s).2.params.valid = _ ∧ (Chains.setFilterParams d s).2.paramsAgg.valid = _
    obtain ⟨h1, h2, h3⟩ := C144_assign s d
    cases d with
    | none => rw [h1 rfl]; exact ⟨rfl, rfl⟩
    | some kv =>
      by_cases h : ∀ p ∈ kv, p.1 ∈ s.params.valid
      · obtain ⟨new, e, hv, -⟩ := h3 kv rfl h
        rw [e]; exact ⟨hv, rfl⟩
      · push Not at h
        rw [h2 kv rfl h]; exact ⟨rfl, rfl⟩
  | setFilterParamsAggregated d =>
    show (Chains.setFilterParamsAggregated d s).2.params.valid = _ ∧ (Chains.setFilterParamsAggregated d s).2.paramsAgg.valid = _
    obtain ⟨h1, h2, h3⟩ := C144_assign_aggregated s d
    cases d with
    | none => rw [h1 rfl]; exact ⟨rfl, rfl⟩
    | some kv =>
      by_cases h : ∀ p ∈ kv, p.1 ∈ s.paramsAgg.valid
      · obtain ⟨new, e, hv, -⟩ := h3 kv rfl h
        rw [e]; exact ⟨rfl, hv⟩
      · push Not at h
        rw [h2 kv rfl h]; exact ⟨rfl, rfl⟩

/-- the object with the filters of another -/
def withFilters (u w : TA Loc ρ σ) : TA Loc ρ σ := { w with params := u.params, paramsAgg := u.paramsAgg }

theorem withFilters_cached {env : Env Loc ρ σ} {x w u v : TA Loc ρ σ} (h : Cached env (withFilters x w) u) :
    Cached env (withFilters v w) (withFilters v u) := by
  obtain ⟨⟨a1, a2, a3, a4, a5, a6, a7, a8, a9⟩, b1, b2, b3, b4, b5⟩ := h
  exact ⟨⟨a1, a2, a3, a4, a5, a6, .refl _, .refl _, a9⟩, b1, b2, b3, b4, b5⟩

/-- the calls of `set_clearsky` alone leave an object that agrees with the present one in all but the filters -/
theorem clearsky_history {env : Env Loc ρ σ} (calls : List (Call Loc)) : ∀ {w u : TA Loc ρ σ}, Cached env (withFilters u w) u →
    let w' := runAll env w (calls.filter fun k => Spec.isSetting k && !Spec.isFilterSetting k)
    let u' := runAll env u calls
    Cached env (withFilters u' w') u' ∧ w'.params = w.params ∧ w'.paramsAgg = w.paramsAgg ∧
      u'.params.valid = u.params.valid ∧ u'.paramsAgg.valid = u.paramsAgg.valid := by
  induction calls with
  | nil => exact fun h => ⟨h, rfl, rfl, rfl, rfl⟩
  | cons k calls ih =>
    intro w u h
    have hv := call_valid env k u
    have key : ∀ {w₁ : TA Loc ρ σ}, Cached env (withFilters (k.run env u).2 w₁) (k.run env u).2 → w₁.params = w.params →
        w₁.paramsAgg = w.paramsAgg →
        Cached env (withFilters (runAll env (k.run env u).2 calls)
            (runAll env w₁ (calls.filter fun k => Spec.isSetting k && !Spec.isFilterSetting k))) (runAll env (k.run env u).2 calls) ∧
          (runAll env w₁ (calls.filter fun k => Spec.isSetting k && !Spec.isFilterSetting k)).params = w.params ∧
          (runAll env w₁ (calls.filter fun k => Spec.isSetting k && !Spec.isFilterSetting k)).paramsAgg = w.paramsAgg ∧
          (runAll env (k.run env u).2 calls).params.valid = u.params.valid ∧
          (runAll env (k.run env u).2 calls).paramsAgg.valid = u.paramsAgg.valid := by
      intro w₁ h1 h2 h3
      obtain ⟨i1, i2, i3, i4, i5⟩ := ih h1
      exact ⟨i1, i2.trans h2, i3.trans h3, i4.trans hv.1, i5.trans hv.2⟩
    have keep : ∀ {u' : TA Loc ρ σ}, Cached env (withFilters u w) u' → Cached env (withFilters u' w) u' := by
      intro u' hc
      exact withFilters_cached (v := u') hc
    cases k with
    | analysis c a y z =>
      rw [List.filter_cons_of_neg (by exact Bool.false_ne_true)]
      exact key (keep (cached_after c a y z h)) rfl rfl
    | setClearsky loc p tc ta =>
      rw [List.filter_cons_of_pos (by rfl)]
      refine key (w₁ := (Chains.setClearsky env loc p tc ta w).2) ?_ ?_ ?_
      · have := cached_setting (.setClearsky loc p tc ta) rfl h
        change Cached env (Chains.setClearsky env loc p tc ta _).2 (Chains.setClearsky env loc p tc ta u).2 at this
        show Cached env (withFilters (Chains.setClearsky env loc p tc ta u).2 _) (Chains.setClearsky env loc p tc ta u).2
        rcases setClearsky_run env loc p tc ta with ⟨e, he⟩ | ⟨p', tc', ta', he⟩ <;> rw [he] at this ⊢ <;> rw [he] at this ⊢ <;> exact this
      · rcases setClearsky_run env loc p tc ta with ⟨e, he⟩ | ⟨p', tc', ta', he⟩ <;> rw [he]
      · rcases setClearsky_run env loc p tc ta with ⟨e, he⟩ | ⟨p', tc', ta', he⟩ <;> rw [he]
    | editFilterParams op =>
      rw [List.filter_cons_of_neg (by exact Bool.false_ne_true)]
      refine key (w₁ := w) ?_ rfl rfl
      exact withFilters_cached (v := ((Call.editFilterParams op).run env u).2) h
    | editFilterParamsAggregated op =>
      rw [List.filter_cons_of_neg (by exact Bool.false_ne_true)]
      refine key (w₁ := w) ?_ rfl rfl
      exact withFilters_cached (v := ((Call.editFilterParamsAggregated op).run env u).2) h
    | setFilterParams d =>
      rw [List.filter_cons_of_neg (by exact Bool.false_ne_true)]
      refine key (w₁ := w) ?_ rfl rfl
      show Cached env (withFilters (Chains.setFilterParams d u).2 _) (Chains.setFilterParams d u).2
      obtain ⟨h1, h2, h3⟩ := C144_assign u d
      cases d with
      | none => rw [h1 rfl]; exact h
      | some kv =>
        by_cases hkv : ∀ p ∈ kv, p.1 ∈ u.params.valid
        · obtain ⟨new, e, -⟩ := h3 kv rfl hkv
          rw [e]
          exact withFilters_cached (v := { u with params := new }) h
        · push Not at hkv
          rw [h2 kv rfl hkv]; exact h
    | setFilterParamsAggregated d =>
      rw [List.filter_cons_of_neg (by exact Bool.false_ne_true)]
      refine key (w₁ := w) ?_ rfl rfl
      show Cached env (withFilters (Chains.setFilterParamsAggregated d u).2 _) (Chains.setFilterParamsAggregated d u).2
      obtain ⟨h1, h2, h3⟩ := C144_assign_aggregated u d
      cases d with
      | none => rw [h1 rfl]; exact h
      | some kv =>
        by_cases hkv : ∀ p ∈ kv, p.1 ∈ u.paramsAgg.valid
        · obtain ⟨new, e, -⟩ := h3 kv rfl hkv
          rw [e]
          exact withFilters_cached (v := { u with paramsAgg := new }) h
        · push Not at hkv
          rw [h2 kv rfl hkv]; exact h

/-- **C144 (supersede).** After a successful assignment to both dictionaries all earlier changes of filters are forgotten: of what came
before, only the clear-sky settings matter for the next analysis. -/
theorem C144_supersedes (env : Env Loc ρ σ) (c : Case) (s : TA Loc ρ σ) (before after : List (Call Loc))
    (kv kv' : List (String × FVal)) (h : ∀ p ∈ kv, p.1 ∈ s.params.valid) (h' : ∀ p ∈ kv', p.1 ∈ s.paramsAgg.valid) :
    Spec.Alike env c (runAll env s (before ++ .setFilterParams (some kv) :: .setFilterParamsAggregated (some kv') :: after))
      (runAll env s ((before.filter fun k => Spec.isSetting k && !Spec.isFilterSetting k) ++
        .setFilterParams (some kv) :: .setFilterParamsAggregated (some kv') :: after.filter Spec.isSetting)) := by
  obtain ⟨h0, h1, h2, h3, h4⟩ := clearsky_history before (w := s) (u := s) (.refl env s)
  unfold runAll at h0 h1 h2 h3 h4 ⊢
  rw [List.foldl_append, List.foldl_append]
  set u := before.foldl (fun s k => (k.run env s).2) s
  set w := (before.filter fun k => Spec.isSetting k && !Spec.isFilterSetting k).foldl (fun s k => (k.run env s).2) s
  refine (cached_history after ?_).alike c
  show Cached env (setFilterParamsAggregated (some kv') (setFilterParams (some kv) w).2).2
    (setFilterParamsAggregated (some kv') (setFilterParams (some kv) u).2).2
  have hc : FilterDict.construct w.params.valid kv = FilterDict.construct u.params.valid kv := by rw [h1, h3]
  have hc' : FilterDict.construct w.paramsAgg.valid kv' = FilterDict.construct u.paramsAgg.valid kv' := by rw [h2, h4]
  obtain ⟨new, hn⟩ := (FilterDict.C52_construct u.params.valid kv).1.mpr (by rw [h3]; exact h)
  obtain ⟨new', hn'⟩ := (FilterDict.C52_construct u.paramsAgg.valid kv').1.mpr (by rw [h4]; exact h')
  have e1 : ∀ v : TA Loc ρ σ, FilterDict.construct v.params.valid kv = .ok new →
      setFilterParams (some kv) v = (.ok (), { v with params := new }) := by
    intro v hv
    unfold setFilterParams
    rw [bind_run_ok (self_run v), bind_run_ok (show (required (some kv) : M Loc ρ σ _) v = (.ok kv, v) from rfl), hv]
    rfl
  have e2 : ∀ v : TA Loc ρ σ, FilterDict.construct v.paramsAgg.valid kv' = .ok new' →
      setFilterParamsAggregated (some kv') v = (.ok (), { v with paramsAgg := new' }) := by
    intro v hv
    unfold setFilterParamsAggregated
    rw [bind_run_ok (self_run v), bind_run_ok (show (required (some kv') : M Loc ρ σ _) v = (.ok kv', v) from rfl), hv]
    rfl
  rw [e1 w (hc.trans hn), e1 u hn]
  simp only
  rw [e2 { w with params := new } (hc'.trans hn'), e2 { u with params := new } hn']
  have := withFilters_cached (v := { u with params := new, paramsAgg := new' }) h0
  exact this

/-- a history with a failing analysis, a rejected and an accepted assignment -/
def exConfig : List (Call Unit) :=
  [.analysis .sensor ["yoy_degradation"] "" "", .setFilterParams (some [("nosuch", .none)]),
    .setFilterParams (some [("poa_filter", .kwargs "low"), ("ad_hoc_filter", .mask [(0, none)])]), .setFilterParamsAggregated none,
    .analysis .clearsky ["yoy_degradation"] "" "", .setFilterParamsAggregated (some [("hampel_filter", .kwargs "")])]

example : (runAll exEnv exTA exConfig).params.items.get? "poa_filter" = some (.kwargs "low") ∧
    (runAll exEnv exTA exConfig).params.items.get? "clip_filter" = none ∧
    (runAll exEnv exTA exConfig).paramsAgg.items.map Prod.fst = ["hampel_filter"] ∧
    (exConfig.filter fun k => Spec.isFilterSetting k).length = 4 := by
  refine ⟨by decide +kernel, by decide +kernel, by decide +kernel, rfl⟩

-- expected power without cell temperature
example : (init (Loc := Unit) (ρ := Nat) (σ := Nat) none [] none none none (some []) true).params.items.map Prod.fst =
    ["normalized_filter", "poa_filter", "clip_filter", "clearsky_filter", "ad_hoc_filter"] := by decide +kernel

example : (∀ p ∈ [("poa_filter", FVal.kwargs "low")], p.1 ∈ exTA.params.valid) ∧
    ∃ p ∈ [("nosuch", FVal.none)], p.1 ∉ exTA.params.valid := by decide +kernel

end Verif.Chains
