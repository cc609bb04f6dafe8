import Verif.Lemmas.ChainsAnalysis

/-! # Objects that differ by what earlier analyses stored -/

namespace Verif.Chains
variable {Loc ρ σ α β : Type} {env : Env Loc ρ σ} {c : Case} {s s₂ : TA Loc ρ σ}

/-! ## operations on the filter dictionaries -/

/-- an operation after the replacement of missing values in its arguments -/
def normOp : FilterDict.Op FVal → FilterDict.Op FVal
  | .setItem k v => .setItem k (normV v)
  | .update a => .update ⟨normItems a.pairs, a.oneShot, normItems a.kwargs⟩
  | .delItem k => .delItem k
  | .clear => .clear
  | .pickle => .pickle

/-- a dictionary after the replacement of missing values -/
def normD (d : FilterDict FVal) : FilterDict FVal := ⟨d.valid, normItems d.items⟩

theorem fillSame_iff {d d' : FilterDict FVal} : FillSame d d' ↔ normD d = normD d' := by
  unfold FillSame normD
  rw [FilterDict.mk.injEq]

theorem normItems_setAll (kv : List (String × FVal)) : ∀ d : Dict FVal,
    normItems (d.setAll kv) = (normItems d).setAll (normItems kv) := by
  induction kv with
  | nil => intro d; rfl
  | cons p kv ih =>
    intro d
    show normItems (Dict.setAll (d.set p.1 p.2) kv) = Dict.setAll ((normItems d).set p.1 (normV p.2)) (normItems kv)
    rw [ih, normItems_set]

theorem normItems_append (a b : List (String × FVal)) : normItems (a ++ b) = normItems a ++ normItems b := List.map_append

theorem normItems_has (d : Dict FVal) (k : String) : (normItems d).has k = d.has k := by
  unfold Dict.has
  rw [normItems_get?, Option.isSome_map]

theorem normItems_all (d : Dict FVal) (q : String → Bool) : ((normItems d).all fun p => q p.1) = d.all fun p => q p.1 := by
  unfold normItems
  rw [List.all_map]
  rfl

theorem normItems_del (d : Dict FVal) (k : String) : normItems (d.del k) = (normItems d).del k := by
  unfold normItems Dict.del
  rw [List.filter_map]
  rfl

theorem normD_step (d : FilterDict FVal) (op : FilterDict.Op FVal) :
    normD (FilterDict.step d op).1 = (FilterDict.step (normD d) (normOp op)).1 := by
  cases op with
  | setItem k v =>
    unfold FilterDict.step normOp FilterDict.setItem
    by_cases h : k ∈ d.valid
    · simp only [if_pos h, if_pos (show k ∈ (normD d).valid from h)]
      show (⟨d.valid, normItems (d.items.set k v)⟩ : FilterDict FVal) = ⟨d.valid, (normItems d.items).set k (normV v)⟩
      rw [normItems_set]
    · simp only [if_neg h, if_neg (show ¬ k ∈ (normD d).valid from h)]
  | update a =>
    have e : (Dict.setAll [] (normItems a.pairs ++ normItems a.kwargs)).all (fun p => decide (p.1 ∈ d.valid)) =
        (Dict.setAll [] (a.pairs ++ a.kwargs)).all fun p => decide (p.1 ∈ d.valid) := by
      rw [← normItems_append, ← normItems_all (Dict.setAll [] (a.pairs ++ a.kwargs)) (fun k => decide (k ∈ d.valid)),
        normItems_setAll]
      rfl
    unfold FilterDict.step normOp FilterDict.update
    simp only [show (normD d).valid = d.valid from rfl, e]
    cases hk : (Dict.setAll [] (a.pairs ++ a.kwargs)).all fun p => decide (p.1 ∈ d.valid) with
    | false => simp
    | true =>
      simp only [if_true]
      show (⟨d.valid, normItems (d.items.setAll _)⟩ : FilterDict FVal) = ⟨d.valid, (normItems d.items).setAll _⟩
      rw [normItems_setAll, normItems_append]
      cases a.oneShot <;> rfl
  | delItem k =>
    unfold FilterDict.step normOp FilterDict.delItem
    simp only [show (normD d).items.has k = d.items.has k from normItems_has _ _]
    cases hk : d.items.has k with
    | false => simp
    | true =>
      simp only [if_true]
      show (⟨d.valid, normItems (d.items.del k)⟩ : FilterDict FVal) = ⟨d.valid, (normItems d.items).del k⟩
      rw [normItems_del]
  | clear => rfl
  | pickle =>
    have e : (Dict.setAll [] (normItems d.items)).all (fun p => decide (p.1 ∈ d.valid)) =
        (Dict.setAll [] d.items).all fun p => decide (p.1 ∈ d.valid) := by
      rw [← normItems_all (Dict.setAll [] d.items) (fun k => decide (k ∈ d.valid)), normItems_setAll]
      rfl
    unfold FilterDict.step normOp FilterDict.pickled FilterDict.construct FilterDict.validateKeys
    simp only [show (normD d).valid = d.valid from rfl, show (normD d).items = normItems d.items from rfl, e]
    cases hk : (Dict.setAll [] d.items).all fun p => decide (p.1 ∈ d.valid) with
    | false => simp [Except.map]
    | true =>
      simp only [if_true, Except.map]
      show (⟨d.valid, normItems (Dict.setAll [] d.items)⟩ : FilterDict FVal) = ⟨d.valid, Dict.setAll [] (normItems d.items)⟩
      rw [normItems_setAll]
      rfl

theorem FillSame.step {d d' : FilterDict FVal} (h : FillSame d d') (op : FilterDict.Op FVal) :
    FillSame (FilterDict.step d op).1 (FilterDict.step d' op).1 := by
  rw [fillSame_iff] at h ⊢
  rw [normD_step, normD_step, h]

/-! ## what earlier analyses may have stored -/

/-- `s₂` has the inputs and the filters of `s`; it may hold the cell temperature that `s` would compute -/
structure Base (env : Env Loc ρ σ) (s s₂ : TA Loc ρ σ) : Prop where
  power : s.pvPower = s₂.pvPower
  energy : s.pvEnergy = s₂.pvEnergy
  poa : s.poa = s₂.poa
  tamb : s.tamb = s₂.tamb
  expected : s.powerExpected = s₂.powerExpected
  daily : s.aggDaily = s₂.aggDaily
  params : FillSame s.params s₂.params
  paramsAgg : FillSame s.paramsAgg s₂.paramsAgg
  tcell : s.tcell = s₂.tcell ∨ (s.tcell = none ∧ s.powerExpected = none ∧ ∃ p ta v, s.poa = some p ∧ s.tamb = some ta ∧
    env.cellTemp p ta true = .ok v ∧ s₂.tcell = some v)

/-- `s₂` moreover has the clear-sky settings of `s`; it may hold the clear-sky series that `s` would compute -/
structure Cached (env : Env Loc ρ σ) (s s₂ : TA Loc ρ σ) : Prop extends Base env s s₂ where
  location : s.location = s₂.location
  tilt : s.tilt = s₂.tilt
  poaCs : s.poaCs = s₂.poaCs ∨ ComputedPoa env s s₂
  tambCs : s.tambCs = s₂.tambCs ∨ (s.tambCs = some none ∧ ∃ loc cs v, s.location = some (some loc) ∧
    s₂.poaCs = some (some cs) ∧ env.clearskyTamb loc cs = .ok v ∧ s₂.tambCs = some (some v))
  tcellCs : s.tcellCs = s₂.tcellCs ∨ (s.tcellCs = some none ∧ ∃ cs ta v, s₂.poaCs = some (some cs) ∧
    s₂.tambCs = some (some ta) ∧ env.cellTemp cs ta false = .ok v ∧ s₂.tcellCs = some (some v))

theorem Base.refl (env : Env Loc ρ σ) (s : TA Loc ρ σ) : Base env s s :=
  ⟨rfl, rfl, rfl, rfl, rfl, rfl, .refl _, .refl _, .inl rfl⟩

theorem Cached.refl (env : Env Loc ρ σ) (s : TA Loc ρ σ) : Cached env s s :=
  ⟨.refl env s, rfl, rfl, .inl rfl, .inl rfl, .inl rfl⟩

theorem Base.modifyOut (h : Base env s s₂) (c : Case) (f : Out ρ σ → Out ρ σ) : Base env s (s₂.modifyOut c f) := by
  obtain ⟨a1, a2, a3, a4, a5, a6, a7, a8, a9⟩ := h
  cases c <;> exact ⟨a1, a2, a3, a4, a5, a6, a7, a8, a9⟩

theorem Cached.modifyOut (h : Cached env s s₂) (c : Case) (f : Out ρ σ → Out ρ σ) : Cached env s (s₂.modifyOut c f) := by
  obtain ⟨h0, b1, b2, b3, b4, b5⟩ := h
  have := h0.modifyOut c f
  cases c <;> exact ⟨this, b1, b2, b3, b4, b5⟩

theorem base_stable (env : Env Loc ρ σ) (c : Case) (s : TA Loc ρ σ) : Stable env c (Base env s) := by
  constructor
  · rintro u d ⟨a1, a2, a3, a4, a5, a6, a7, a8, a9⟩ - hd
    exact ⟨a1, a2, a3, a4, a5, a6, a7.trans hd, a8, a9⟩
  · rintro u d ⟨a1, a2, a3, a4, a5, a6, a7, a8, a9⟩ - hd
    exact ⟨a1, a2, a3, a4, a5, a6, a7, a8.trans hd, a9⟩
  · intro u f h _; exact h.modifyOut c f
  · rintro u p loc v ⟨a1, a2, a3, a4, a5, a6, a7, a8, a9⟩ _ _ _ _ _
    exact ⟨a1, a2, a3, a4, a5, a6, a7, a8, a9⟩
  · rintro u p ta v ⟨a1, a2, a3, a4, a5, a6, a7, a8, a9⟩ - h1 h2 h3 h4 h5
    refine ⟨a1, a2, a3, a4, a5, a6, a7, a8, ?_⟩
    rcases a9 with e | ⟨-, -, _, _, w, -, -, -, e⟩
    · exact .inr ⟨e.trans h1, a5.trans h2, p, ta, v, a3.trans h3, a4.trans h4, h5, rfl⟩
    · rw [h1] at e; cases e
  · rintro u cs ta v ⟨a1, a2, a3, a4, a5, a6, a7, a8, a9⟩ _ _ _ _ _
    exact ⟨a1, a2, a3, a4, a5, a6, a7, a8, a9⟩
  · rintro u loc cs v ⟨a1, a2, a3, a4, a5, a6, a7, a8, a9⟩ _ _ _ _ _
    exact ⟨a1, a2, a3, a4, a5, a6, a7, a8, a9⟩

theorem cached_stable (env : Env Loc ρ σ) (c : Case) (s : TA Loc ρ σ) : Stable env c (Cached env s) := by
  have B := base_stable env c s
  constructor
  · rintro u d ⟨h0, b1, b2, b3, b4, b5⟩ h hd
    exact ⟨B.params u d h0 h hd, b1, b2, b3, b4, b5⟩
  · rintro u d ⟨h0, b1, b2, b3, b4, b5⟩ h hd
    exact ⟨B.paramsAgg u d h0 h hd, b1, b2, b3, b4, b5⟩
  · intro u f h _; exact h.modifyOut c f
  · rintro u p loc v ⟨h0, b1, b2, b3, b4, b5⟩ h1 h2 h3 h4 h5
    refine ⟨B.poaCs u p loc v h0 h1 h2 h3 h4 h5, b1, b2, ?_, ?_, ?_⟩
    · rcases b3 with e | ⟨-, _, _, w, -, -, -, -, e⟩
      · exact .inr ⟨e.trans h1, p, loc, v, h0.poa.trans h2, b1.trans h3, b2.trans h4, h5, rfl⟩
      · rw [h1] at e; cases e
    · rcases b4 with e | ⟨-, _, _, _, -, e, -⟩
      · exact .inl e
      · rw [h1] at e; cases e
    · rcases b5 with e | ⟨-, _, _, _, e, -⟩
      · exact .inl e
      · rw [h1] at e; cases e
  · rintro u p ta v ⟨h0, b1, b2, b3, b4, b5⟩ hc h1 h2 h3 h4 h5
    exact ⟨B.tcell u p ta v h0 hc h1 h2 h3 h4 h5, b1, b2, b3, b4, b5⟩
  · rintro u cs ta v ⟨h0, b1, b2, b3, b4, b5⟩ hc h1 h2 h3 h4
    refine ⟨B.tcellCs u cs ta v h0 hc h1 h2 h3 h4, b1, b2, b3, b4, ?_⟩
    rcases b5 with e | ⟨-, _, _, _, -, -, -, e⟩
    · exact .inr ⟨e.trans h1, cs, ta, v, h2, h3, h4, rfl⟩
    · rw [h1] at e; cases e
  · rintro u loc cs v ⟨h0, b1, b2, b3, b4, b5⟩ hc h1 h2 h3 h4
    refine ⟨B.tambCs u loc cs v h0 hc h1 h2 h3 h4, b1, b2, b3, ?_, ?_⟩
    · rcases b4 with e | ⟨-, _, _, _, -, -, -, e⟩
      · exact .inr ⟨e.trans h1, loc, cs, v, b1.trans h2, h3, h4, rfl⟩
      · rw [h1] at e; cases e
    · rcases b5 with e | ⟨-, _, _, _, -, e, -⟩
      · exact .inl e
      · rw [h1] at e; cases e

theorem base_after (c : Case) (analyses : List String) (yoyKw srrKw : String) (h : Base env s s₂) :
    Base env s (analysis env c analyses yoyKw srrKw s₂).2 := by
  rcases analysis_keeps (base_stable env c s) h analyses yoyKw srrKw with ⟨e, u, hu, he⟩ | ⟨u, _, _, y, z, hu, -, -, -, -, -, he⟩
  · rw [he]; exact hu
  · rw [he]; exact hu.modifyOut c fun o => { o with results := some ⟨y, z⟩ }

theorem cached_after (c : Case) (analyses : List String) (yoyKw srrKw : String) (h : Cached env s s₂) :
    Cached env s (analysis env c analyses yoyKw srrKw s₂).2 := by
  rcases analysis_keeps (cached_stable env c s) h analyses yoyKw srrKw with ⟨e, u, hu, he⟩ | ⟨u, _, _, y, z, hu, -, -, -, -, -, he⟩
  · rw [he]; exact hu
  · rw [he]; exact hu.modifyOut c fun o => { o with results := some ⟨y, z⟩ }

/-! ## two runs with the same outcome, in related states if they succeed -/

/-- the same outcome, and related states after a success -/
def RelOk (R : TA Loc ρ σ → TA Loc ρ σ → Prop) (s s₂ : TA Loc ρ σ) (m m' : M Loc ρ σ α) : Prop :=
  (m s).1 = (m' s₂).1 ∧ ∀ a, (m s).1 = .ok a → R (m s).2 (m' s₂).2

variable {R R' : TA Loc ρ σ → TA Loc ρ σ → Prop}

theorem relOk_bind {m m' : M Loc ρ σ α} {f f' : α → M Loc ρ σ β} (h : RelOk R s s₂ m m')
    (hf : ∀ a u u₂, R u u₂ → RelOk R' u u₂ (f a) (f' a)) : RelOk R' s s₂ (m >>= f) (m' >>= f') := by
  unfold RelOk at h ⊢
  rw [bind_run, bind_run]
  cases h1 : m s with
  | mk r u =>
    cases h2 : m' s₂ with
    | mk r' u₂ =>
      rw [h1, h2] at h
      obtain ⟨rfl, hR⟩ := h
      cases r with
      | error e => exact ⟨rfl, fun a ha => by cases ha⟩
      | ok a => exact hf a u u₂ (hR a rfl)

theorem relOk_bind_ro {m m' : M Loc ρ σ α} {f f' : α → M Loc ρ σ β} (hm : ReadOnly m)
    (hm' : ReadOnly m') (h : (m s).1 = (m' s₂).1) (hf : ∀ a, RelOk R' s s₂ (f a) (f' a)) :
    RelOk R' s s₂ (m >>= f) (m' >>= f') := by
  refine relOk_bind (R := fun u u₂ => u = s ∧ u₂ = s₂) ⟨h, fun a _ => ⟨hm s, hm' s₂⟩⟩ ?_
  rintro a u u₂ ⟨rfl, rfl⟩
  exact hf a

theorem relOk_ro {m m' : M Loc ρ σ α} (hR : R s s₂) (hm : ReadOnly m) (hm' : ReadOnly m')
    (h : (m s).1 = (m' s₂).1) : RelOk R s s₂ m m' :=
  ⟨h, fun _ _ => by rw [hm, hm']; exact hR⟩

theorem relOk_self {f f' : TA Loc ρ σ → M Loc ρ σ α} (h : RelOk R s s₂ (f s) (f' s₂)) :
    RelOk R s s₂ (self >>= f) (self >>= f') := h

theorem RelAt.ok {m m' : M Loc ρ σ α} (h : RelAt R s s₂ m m') : RelOk R s s₂ m m' := ⟨h.1, fun _ _ => h.2⟩

theorem relOk_mono {m m' : M Loc ρ σ α} (hR : ∀ u u₂, R u u₂ → R' u u₂) (h : RelOk R s s₂ m m') : RelOk R' s s₂ m m' :=
  ⟨h.1, fun a ha => hR _ _ (h.2 a ha)⟩

theorem relOk_assign {f f' : TA Loc ρ σ → TA Loc ρ σ} (h : R (f s) (f' s₂)) : RelOk R s s₂ (assign f) (assign f') :=
  ⟨rfl, fun _ _ => h⟩

/-- the same for the filters of case `c`, whatever was stored before -/
structure Same (c : Case) (s s₂ : TA Loc ρ σ) : Prop where
  power : s.pvPower = s₂.pvPower
  poa : s.poa = s₂.poa
  daily : s.aggDaily = s₂.aggDaily
  params : FillEq s.params s₂.params
  paramsAgg : FillEq s.paramsAgg s₂.paramsAgg
  location : s.location = s₂.location
  poaCs : c = .clearsky ∨ s.params.items.has "sensor_clearsky_filter" = true → s.poaCs = s₂.poaCs
  tcell : c = .sensor → s.tcell = s₂.tcell
  tcellCs : c = .clearsky → s.tcellCs = s₂.tcellCs

theorem Same.modifyOut (h : Same c s s₂) (f f₂ : Out ρ σ → Out ρ σ) : Same c (s.modifyOut c f) (s₂.modifyOut c f₂) := by
  obtain ⟨a1, a2, a3, a4, a5, a6, a7, a8, a9⟩ := h
  cases c <;> exact ⟨a1, a2, a3, a4, a5, a6, a7, a8, a9⟩

theorem filter_same (energy : Series) (h : Same c s s₂) :
    RelOk (fun u u₂ => Same c u u₂ ∧ (u.out c).mask = (u₂.out c).mask ∧ (u.out c).components = (u₂.out c).components) s s₂
      (filter env energy c) (filter env energy c) := by
  have hd := h.params
  unfold filter
  refine relOk_self ?_
  refine relOk_bind_ro (readOnly_casePoa _ _) (readOnly_casePoa _ _) ?_ fun poa => ?_
  · cases c with
    | sensor => show Except.ok s.poa = Except.ok s₂.poa; rw [h.poa]
    | clearsky => show ((attr s.poaCs : M Loc ρ σ _) s).1 = _; rw [h.poaCs (.inl rfl)]; exact attr_rel _ _ _
  refine relOk_bind_ro (readOnly_caseTcell _ _) (readOnly_caseTcell _ _) ?_ fun tcell => ?_
  · cases c with
    | sensor => show Except.ok s.tcell = Except.ok s₂.tcell; rw [h.tcell rfl]
    | clearsky => show ((attr s.tcellCs : M Loc ρ σ _) s).1 = _; rw [h.tcellCs rfl]; exact attr_rel _ _ _
  refine relOk_bind_ro (readOnly_component _ _ (readOnly_pure _) _) (readOnly_component _ _ (readOnly_pure _) _)
    (component_rel (s := s) (s₂ := s₂) hd _ (readOnly_pure _) (readOnly_pure _) rfl _) fun c1 => ?_
  refine relOk_bind_ro (readOnly_component _ _ (readOnly_required _) _) (readOnly_component _ _ (readOnly_required _) _)
    (component_rel hd _ (readOnly_required _) (readOnly_required _) (required_rel _ _ _) _) fun c2 => ?_
  refine relOk_bind_ro (readOnly_component _ _ (readOnly_required _) _) (readOnly_component _ _ (readOnly_required _) _)
    (component_rel hd _ (readOnly_required _) (readOnly_required _) (required_rel _ _ _) _) fun c3 => ?_
  refine relOk_bind_ro (readOnly_component _ _ (readOnly_required _) _) (readOnly_component _ _ (readOnly_required _) _)
    (component_rel hd _ (readOnly_required _) (readOnly_required _) (by rw [h.power]; exact required_rel _ _ _) _) fun c4 => ?_
  refine relOk_bind_ro (readOnly_component _ _ (readOnly_hourAngleLocation _) _)
    (readOnly_component _ _ (readOnly_hourAngleLocation _) _)
    (component_rel hd _ (readOnly_hourAngleLocation _) (readOnly_hourAngleLocation _)
      (hourAngleLocation_rel h.location) _) fun c5 => ?_
  refine relOk_bind_ro (readOnly_caseClearsky _ _) (readOnly_caseClearsky _ _) ?_ fun c6 => ?_
  · cases c with
    | sensor => rfl
    | clearsky => exact clearskyComponent_rel _ h.poa (h.poaCs (.inl rfl)) hd
  refine relOk_bind_ro (readOnly_sensorClearsky _ _) (readOnly_sensorClearsky _ _) ?_ fun c7 => ?_
  · unfold sensorClearsky
    rw [← hd.has]
    split_ifs with hh
    · exact clearskyComponent_rel _ h.poa (h.poaCs (.inr hh)) hd
    · rfl
  refine relOk_bind (RelAt.ok (adHoc_rel (R := Same c) h hd (fun d d₂ h1 h2 => ?_) _)) fun a u u₂ hu => ?_
  · obtain ⟨a1, a2, a3, a4, a5, a6, a7, a8, a9⟩ := h
    refine ⟨a1, a2, a3, (h1.symm.trans a4).trans h2, a5, a6, ?_, a8, a9⟩
    rw [show ({ s with params := d } : TA Loc ρ σ).params.items.has "sensor_clearsky_filter" = _ from (h1.has _).symm]
    exact a7
  · refine relOk_assign ⟨hu.modifyOut _ _, ?_, ?_⟩ <;> simp

theorem aggregatedFilter_same (agg : Series) (h : Same c s s₂) (hi : (s.out c).insolation = (s₂.out c).insolation) :
    RelOk (fun u u₂ => Same c u u₂ ∧ (u.out c).maskAgg = (u₂.out c).maskAgg ∧
        (u.out c).componentsAgg = (u₂.out c).componentsAgg ∧
        ∀ Q : Option BMask → Option (List (String × BMask)) → Option Series → Prop,
          (Q (s.out c).mask (s.out c).components (s.out c).insolation ↔ Q (u.out c).mask (u.out c).components (u.out c).insolation) ∧
          (Q (s₂.out c).mask (s₂.out c).components (s₂.out c).insolation ↔
            Q (u₂.out c).mask (u₂.out c).components (u₂.out c).insolation)) s s₂
      (aggregatedFilter env agg c) (aggregatedFilter env agg c) := by
  have hd := h.paramsAgg
  unfold aggregatedFilter
  refine relOk_self ?_
  rw [hi]
  refine relOk_bind_ro (readOnly_attr _) (readOnly_attr _) (attr_rel _ _ _) fun insol => ?_
  refine relOk_bind_ro (readOnly_component _ _ (readOnly_pure _) _) (readOnly_component _ _ (readOnly_pure _) _)
    (component_rel (s := s) (s₂ := s₂) hd _ (readOnly_pure _) (readOnly_pure _) rfl _) fun c1 => ?_
  refine relOk_bind_ro (readOnly_component _ _ (readOnly_pure _) _) (readOnly_component _ _ (readOnly_pure _) _)
    (component_rel (s := s) (s₂ := s₂) hd _ (readOnly_pure _) (readOnly_pure _) rfl _) fun c2 => ?_
  refine relOk_bind_ro (readOnly_component _ _ (readOnly_pure _) _) (readOnly_component _ _ (readOnly_pure _) _)
    (component_rel (s := s) (s₂ := s₂) hd _ (readOnly_pure _) (readOnly_pure _) rfl _) fun c3 => ?_
  refine relOk_bind_ro (readOnly_component _ _ (readOnly_pure _) _) (readOnly_component _ _ (readOnly_pure _) _)
    (component_rel (s := s) (s₂ := s₂) hd _ (readOnly_pure _) (readOnly_pure _) rfl _) fun c4 => ?_
  refine relOk_bind (RelAt.ok (adHoc_rel (R := fun u u₂ => Same c u u₂ ∧ u.out c = s.out c ∧ u₂.out c = s₂.out c)
    ⟨h, rfl, rfl⟩ hd (fun d d₂ h1 h2 => ?_) _)) fun a u u₂ hu => ?_
  · obtain ⟨a1, a2, a3, a4, a5, a6, a7, a8, a9⟩ := h
    exact ⟨⟨a1, a2, a3, a4, (h1.symm.trans a5).trans h2, a6, a7, a8, a9⟩, by cases c <;> rfl, by cases c <;> rfl⟩
  · refine relOk_assign ⟨hu.1.modifyOut _ _, ?_, ?_, fun Q => ?_⟩
    · simp
    · simp
    · rw [← hu.2.1, ← hu.2.2] at hi
      rw [← hu.2.1, ← hu.2.2]; simp [hi]

/-- the same stored attributes except for the results -/
def OutSame (o o₂ : Out ρ σ) : Prop :=
  o.mask = o₂.mask ∧ o.components = o₂.components ∧ o.insolation = o₂.insolation ∧ o.maskAgg = o₂.maskAgg ∧
    o.componentsAgg = o₂.componentsAgg ∧ o.performance = o₂.performance

theorem finish_same (energy insol : Series) (h : Same c s s₂) :
    RelOk (fun u u₂ => Same c u u₂ ∧ OutSame (u.out c) (u₂.out c)) s s₂
      (finish env energy insol c) (finish env energy insol c) := by
  unfold finish
  refine relOk_bind (filter_same _ h) fun _ u u₂ hu => ?_
  refine relOk_self ?_
  rw [hu.2.1]
  refine relOk_bind_ro (readOnly_attr _) (readOnly_attr _) (attr_rel _ _ _) fun mask => ?_
  refine relOk_bind_ro (readOnly_call _) (readOnly_call _) rfl fun xe => ?_
  refine relOk_bind_ro (readOnly_call _) (readOnly_call _) rfl fun xi => ?_
  refine relOk_bind_ro (readOnly_call _) (readOnly_call _) rfl fun r => ?_
  refine relOk_bind (R := fun v v₂ => Same c v v₂ ∧ (v.out c).mask = (v₂.out c).mask ∧
    (v.out c).components = (v₂.out c).components ∧ (v.out c).insolation = (v₂.out c).insolation) (relOk_assign ?_)
    fun _ v v₂ hv => ?_
  · exact ⟨hu.1.modifyOut _ _, by simp [hu.2.1], by simp [hu.2.2], by simp⟩
  refine relOk_bind (aggregatedFilter_same _ hv.1 hv.2.2.2) fun _ w w₂ hw => ?_
  obtain ⟨hS, e4, e5, hQ⟩ := hw
  have e1 : (w.out c).mask = (w₂.out c).mask := by
    have h1 := ((hQ fun a _ _ => a = (v₂.out c).mask).1).mp hv.2.1
    have h2 := ((hQ fun a _ _ => a = (v₂.out c).mask).2).mp rfl
    rw [h1, h2]
  have e2 : (w.out c).components = (w₂.out c).components := by
    have h1 := ((hQ fun _ a _ => a = (v₂.out c).components).1).mp hv.2.2.1
    have h2 := ((hQ fun _ a _ => a = (v₂.out c).components).2).mp rfl
    rw [h1, h2]
  refine relOk_self ?_
  rw [e4]
  refine relOk_bind_ro (readOnly_attr _) (readOnly_attr _) (attr_rel _ _ _) fun maskAgg => ?_
  refine relOk_bind_ro (readOnly_call _) (readOnly_call _) rfl fun p => ?_
  refine relOk_bind (R := fun x x₂ => Same c x x₂ ∧ (x.out c).mask = (x₂.out c).mask ∧
    (x.out c).components = (x₂.out c).components ∧ (x.out c).maskAgg = (x₂.out c).maskAgg ∧
    (x.out c).componentsAgg = (x₂.out c).componentsAgg) (relOk_assign ?_) fun _ x x₂ hx => ?_
  · exact ⟨hS.modifyOut _ _, by simp [e1], by simp [e2], by simp [e4], by simp [e5]⟩
  refine relOk_bind_ro (readOnly_call _) (readOnly_call _) rfl fun q => ?_
  refine relOk_assign ⟨hx.1.modifyOut _ _, ?_⟩
  obtain ⟨-, f1, f2, f3, f4⟩ := hx
  refine ⟨?_, ?_, ?_, ?_, ?_, ?_⟩ <;> simp [f1, f2, f3, f4]

/-! ## whole analyses -/

theorem ensureClearskyPoa_cached (h : Cached env s s₂) :
    RelOk (fun u u₂ => Cached env u u₂ ∧ u.poaCs = u₂.poaCs) s s₂ (ensureClearskyPoa env) (ensureClearskyPoa env) := by
  unfold ensureClearskyPoa
  refine relOk_self ?_
  rcases h.poaCs with he | ⟨hn, p, loc, v, hp, hl, ht, hv, h₂⟩
  · rw [← he]
    cases hc : s.poaCs with
    | none => exact ⟨rfl, fun a ha => by cases ha⟩
    | some cs =>
      show RelOk _ s s₂ (if cs.isSome then _ else _) (if cs.isSome then _ else _)
      cases cs with
      | some cs => exact relOk_ro ⟨h, he⟩ (readOnly_pure _) (readOnly_pure _) rfl
      | none =>
        show RelOk _ s s₂ (calcClearskyPoa env s) (calcClearskyPoa env s₂)
        unfold calcClearskyPoa
        rw [h.poa, h.location, h.tilt]
        refine relOk_bind_ro (readOnly_attr _) (readOnly_attr _) (attr_rel _ _ _) fun poa => ?_
        refine relOk_bind_ro (readOnly_required _) (readOnly_required _) (required_rel _ _ _) fun l => ?_
        split_ifs
        · refine relOk_bind_ro (readOnly_attr _) (readOnly_attr _) (attr_rel _ _ _) fun loc => ?_
          refine relOk_bind_ro (readOnly_call _) (readOnly_call _) rfl fun v => ?_
          refine relOk_assign ⟨?_, rfl⟩
          rw [hc] at he
          obtain ⟨⟨a1, a2, a3, a4, a5, a6, a7, a8, a9⟩, b1, b2, b3, b4, b5⟩ := h
          refine ⟨⟨a1, a2, a3, a4, a5, a6, a7, a8, a9⟩, b1, b2, .inl rfl, ?_, ?_⟩
          · rcases b4 with e | ⟨-, _, _, _, -, e, -⟩
            · exact .inl e
            · rw [← he] at e; cases e
          · rcases b5 with e | ⟨-, _, _, _, e, -⟩
            · exact .inl e
            · rw [← he] at e; cases e
        · exact ⟨rfl, fun a ha => by cases ha⟩
  · have e1 : (do let cs ← attr s.poaCs; if cs.isSome then pure ⟨⟩ else calcClearskyPoa env s : M Loc ρ σ PUnit) s =
        (.ok ⟨⟩, { s with poaCs := some (some v) }) := by
      rw [hn]
      show calcClearskyPoa env s s = _
      unfold calcClearskyPoa
      rw [bind_run_ok (show (attr s.poa : M Loc ρ σ _) s = (.ok p, s) by rw [hp]; rfl),
        bind_run_ok (show (required s.location : M Loc ρ σ _) s = (.ok (some loc), s) by rw [hl]; rfl),
        if_pos ht, bind_run_ok (show (attr (some loc) : M Loc ρ σ _) s = (.ok loc, s) from rfl),
        bind_run_ok (show (call (env.clearskyPoa loc p) : M Loc ρ σ _) s = (.ok v, s) by rw [hv]; rfl)]
      rfl
    have e2 : (do let cs ← attr s₂.poaCs; if cs.isSome then pure ⟨⟩ else calcClearskyPoa env s₂ : M Loc ρ σ PUnit) s₂ =
        (.ok ⟨⟩, s₂) := by rw [h₂]; rfl
    unfold RelOk
    rw [e1, e2]
    refine ⟨rfl, fun _ _ => ⟨?_, h₂.symm⟩⟩
    obtain ⟨⟨a1, a2, a3, a4, a5, a6, a7, a8, a9⟩, b1, b2, b3, b4, b5⟩ := h
    exact ⟨⟨a1, a2, a3, a4, a5, a6, a7, a8, a9⟩, b1, b2, .inl h₂.symm, b4, b5⟩

theorem Cached.same (h : Cached env s s₂)
    (hp : c = .clearsky ∨ s.params.items.has "sensor_clearsky_filter" = true → s.poaCs = s₂.poaCs)
    (h1 : c = .sensor → s.tcell = s₂.tcell) (h2 : c = .clearsky → s.tcellCs = s₂.tcellCs) : Same c s s₂ :=
  ⟨h.power, h.poa, h.daily, h.params.eq, h.paramsAgg.eq, h.location, hp, h1, h2⟩

theorem relOk_runs {m m' : M Loc ρ σ α} {a : α} {u u₂ : TA Loc ρ σ} (h : m s = (.ok a, u)) (h' : m' s₂ = (.ok a, u₂))
    (hR : R u u₂) : RelOk R s s₂ m m' := by
  unfold RelOk
  rw [h, h']
  exact ⟨rfl, fun _ _ => hR⟩

theorem sensorTcell_stored {poa v : Series} (u : TA Loc ρ σ) (h : s.tcell = some v) :
    sensorTcell env s poa u = (.ok v, u) := by
  unfold sensorTcell; rw [h]; rfl

theorem sensorTcell_computed {poa ta v : Series} (u : TA Loc ρ σ) (h : s.tcell = none) (h1 : s.tamb = some ta)
    (h2 : env.cellTemp poa ta true = .ok v) : sensorTcell env s poa u = (.ok v, { u with tcell := some v }) := by
  unfold sensorTcell
  rw [h, h1]
  show (call (env.cellTemp poa ta true) >>= _ : M Loc ρ σ Series) u = _
  rw [h2]; rfl

theorem clearskyTambient_stored {cs v : Series} (u : TA Loc ρ σ) (h : s.tambCs = some (some v)) :
    clearskyTambient env s cs u = (.ok v, u) := by
  unfold clearskyTambient; rw [h]; rfl

theorem clearskyTambient_computed {cs v : Series} {loc : Loc} (u : TA Loc ρ σ) (h : s.tambCs = some none)
    (h1 : s.location = some (some loc)) (h2 : env.clearskyTamb loc cs = .ok v) :
    clearskyTambient env s cs u = (.ok v, { u with tambCs := some (some v) }) := by
  unfold clearskyTambient
  rw [h, h1]
  show (call (env.clearskyTamb loc cs) >>= _ : M Loc ρ σ Series) u = _
  rw [h2]; rfl

theorem clearskyTcell_stored {cs v : Series} (u : TA Loc ρ σ) (h : s.tcellCs = some (some v)) :
    clearskyTcell env s cs u = (.ok v, u) := by
  unfold clearskyTcell; rw [h]; rfl

theorem clearskyTcell_computed {cs ta v : Series} {u w : TA Loc ρ σ} (h : s.tcellCs = some none)
    (h1 : clearskyTambient env s cs u = (.ok ta, w)) (h2 : env.cellTemp cs ta false = .ok v) :
    clearskyTcell env s cs u = (.ok v, { w with tcellCs := some (some v) }) := by
  unfold clearskyTcell
  rw [h]
  show (clearskyTambient env s cs >>= _ : M Loc ρ σ Series) u = _
  rw [bind_run_ok h1, h2]; rfl

/-- what `sensorNormalize` needs of the objects read before the clear-sky irradiance was computed -/
theorem sensorNormalize_same {u u₂ : TA Loc ρ σ} {p : Series} (h : Base env s s₂) (hp : s₂.poa = some p) (hu : Cached env u u₂)
    (h1 : u.tcell = s.tcell) (h2 : u₂.tcell = s₂.tcell)
    (hcs : u.params.items.has "sensor_clearsky_filter" = true → u.poaCs = u₂.poaCs) :
    RelOk (Same .sensor) u u₂ (sensorNormalize env s p) (sensorNormalize env s₂ p) := by
  have hcs' : Case.sensor = .clearsky ∨ u.params.items.has "sensor_clearsky_filter" = true → u.poaCs = u₂.poaCs := by
    rintro (e | e)
    · cases e
    · exact hcs e
  unfold sensorNormalize
  rw [h.energy]
  cases he : s.powerExpected with
  | some pe =>
    rw [← h.expected, he]
    refine relOk_ro (hu.same hcs' (fun _ => ?_) (fun e => by cases e)) (readOnly_call _) (readOnly_call _) rfl
    rw [h1, h2]
    rcases h.tcell with e | ⟨-, e, -⟩
    · exact e
    · rw [he] at e; cases e
  | none =>
    rw [← h.expected, he]
    refine relOk_bind (R := Same .sensor) ?_ fun tc v v₂ hv => relOk_ro hv (readOnly_call _) (readOnly_call _) rfl
    rcases h.tcell with e | ⟨hn, -, q, ta, v, e1, e2, e3, e4⟩
    · unfold sensorTcell
      rw [← e]
      cases ht : s.tcell with
      | some tc =>
        exact relOk_ro (hu.same hcs' (fun _ => by rw [h1, h2, e]) (fun e => by cases e)) (readOnly_pure _) (readOnly_pure _) rfl
      | none =>
        rw [h.tamb]
        cases s₂.tamb with
        | none => exact ⟨rfl, fun a ha => by cases ha⟩
        | some ta =>
          refine relOk_bind_ro (readOnly_call _) (readOnly_call _) rfl fun v => ?_
          refine relOk_bind (R := Same .sensor) (relOk_assign ?_) fun _ w w₂ hw =>
            relOk_ro hw (readOnly_pure _) (readOnly_pure _) rfl
          obtain ⟨a1, a2, a3, a4, a5, a6, a7, a8, a9⟩ := hu.toBase
          exact ⟨a1, a3, a6, a7.eq, a8.eq, hu.location, hcs', fun _ => rfl, fun e => by cases e⟩
    · have ep : q = p := by rw [h.poa, hp] at e1; exact (Option.some.inj e1).symm
      subst ep
      refine relOk_runs (sensorTcell_computed u hn e2 e3) (sensorTcell_stored u₂ e4) ?_
      obtain ⟨a1, a2, a3, a4, a5, a6, a7, a8, a9⟩ := hu.toBase
      exact ⟨a1, a3, a6, a7.eq, a8.eq, hu.location, hcs', fun _ => by rw [h2, e4], fun e => by cases e⟩

theorem sensorPreprocess_same (h : Cached env s s₂) :
    RelOk (fun u u₂ => Same .sensor u u₂ ∧ OutSame (u.out .sensor) (u₂.out .sensor)) s s₂
      (sensorPreprocess env) (sensorPreprocess env) := by
  unfold sensorPreprocess
  refine relOk_self ?_
  rw [h.poa]
  cases hp : s₂.poa with
  | none => exact ⟨rfl, fun a ha => by cases ha⟩
  | some p =>
    show RelOk _ s s₂ (sensorClearskyPoa env s >>= _) (sensorClearskyPoa env s₂ >>= _)
    refine relOk_bind (R := fun u u₂ => Cached env u u₂ ∧
      (u.params.items.has "sensor_clearsky_filter" = true → u.poaCs = u₂.poaCs) ∧ u.tcell = s.tcell ∧ u₂.tcell = s₂.tcell)
      ?_ fun _ u u₂ hu => ?_
    · have t1 := sensorClearskyPoa_temps (env := env) s _ _ rfl
      have t2 := sensorClearskyPoa_temps (env := env) s₂ _ _ rfl
      have k : RelOk (fun u u₂ => Cached env u u₂ ∧
          (u.params.items.has "sensor_clearsky_filter" = true → u.poaCs = u₂.poaCs)) s s₂
          (sensorClearskyPoa env s) (sensorClearskyPoa env s₂) := by
        unfold sensorClearskyPoa
        rw [← h.params.eq.has]
        split_ifs with hh
        · exact relOk_mono (fun u u₂ hu => ⟨hu.1, fun _ => hu.2⟩) (ensureClearskyPoa_cached h)
        · exact relOk_ro ⟨h, fun e => absurd e hh⟩ (readOnly_pure _) (readOnly_pure _) rfl
      exact ⟨k.1, fun a ha => ⟨(k.2 a ha).1, (k.2 a ha).2, t1.1, t2.1⟩⟩
    · refine relOk_bind (sensorNormalize_same h.toBase hp hu.1 hu.2.2.1 hu.2.2.2 hu.2.1) fun r v v₂ hv => ?_
      exact finish_same _ _ hv

theorem clearskyTcell_same {cs : Series} (h : Cached env s s₂) (hp : s.poaCs = some (some cs)) (hp₂ : s₂.poaCs = some (some cs)) :
    RelOk (Same .clearsky) s s₂ (clearskyTcell env s cs) (clearskyTcell env s₂ cs) := by
  obtain ⟨a1, a2, a3, a4, a5, a6, a7, a8, a9⟩ := h.toBase
  have fin : ∀ (u u₂ : TA Loc ρ σ), Cached env u u₂ → u.poaCs = u₂.poaCs → ∀ v, Same .clearsky
      { u with tcellCs := some (some v) } { u₂ with tcellCs := some (some v) } := by
    intro u u₂ hu he v
    obtain ⟨a1, a2, a3, a4, a5, a6, a7, a8, a9⟩ := hu.toBase
    exact ⟨a1, a3, a6, a7.eq, a8.eq, hu.location, fun _ => he, nofun, fun _ => rfl⟩
  rcases h.tcellCs with e | ⟨hn, cs', ta, v, e1, e2, e3, e4⟩
  · unfold clearskyTcell
    rw [← e]
    cases ht : s.tcellCs with
    | none => exact ⟨rfl, fun a ha => by cases ha⟩
    | some t =>
      cases t with
      | some v =>
        exact relOk_ro (h.same (fun _ => by rw [hp, hp₂]) (fun e => by cases e) (fun _ => e)) (readOnly_pure _) (readOnly_pure _) rfl
      | none =>
        refine relOk_bind (R := fun u u₂ => Cached env u u₂ ∧ u.poaCs = u₂.poaCs)
          (m := clearskyTambient env s cs) (m' := clearskyTambient env s₂ cs) ?_ fun tamb u u₂ hu => ?_
        · rcases h.tambCs with f | ⟨fn, loc, cs', ta, f1, f2, f3, f4⟩
          · unfold clearskyTambient
            rw [← f]
            cases s.tambCs with
            | none => exact ⟨rfl, fun a ha => by cases ha⟩
            | some o =>
              cases o with
              | some ta => exact relOk_ro ⟨h, by rw [hp, hp₂]⟩ (readOnly_pure _) (readOnly_pure _) rfl
              | none =>
                show RelOk _ s s₂ (required s.location >>= _) (required s₂.location >>= _)
                rw [h.location]
                refine relOk_bind_ro (readOnly_required _) (readOnly_required _) (required_rel _ _ _) fun l => ?_
                refine relOk_bind_ro (readOnly_attr _) (readOnly_attr _) (attr_rel _ _ _) fun loc => ?_
                refine relOk_bind_ro (readOnly_call _) (readOnly_call _) rfl fun v => ?_
                refine relOk_bind (R := fun u u₂ => Cached env u u₂ ∧ u.poaCs = u₂.poaCs) (relOk_assign ?_) fun _ w w₂ hw =>
                  relOk_ro hw (readOnly_pure _) (readOnly_pure _) rfl
                exact ⟨⟨⟨a1, a2, a3, a4, a5, a6, a7, a8, a9⟩, h.location, h.tilt, h.poaCs, .inl rfl, .inl e⟩, by
                  show s.poaCs = s₂.poaCs; rw [hp, hp₂]⟩
          · have : cs' = cs := by rw [hp₂] at f2; exact (Option.some.inj (Option.some.inj f2)).symm
            subst this
            refine relOk_runs (clearskyTambient_computed s fn f1 f3) (clearskyTambient_stored s₂ f4) ⟨?_, ?_⟩
            · exact ⟨⟨a1, a2, a3, a4, a5, a6, a7, a8, a9⟩, h.location, h.tilt, h.poaCs, .inl f4.symm, .inl e⟩
            · show s.poaCs = _; rw [hp, hp₂]
        · refine relOk_bind_ro (readOnly_call _) (readOnly_call _) rfl fun v => ?_
          refine relOk_bind (R := Same .clearsky) (relOk_assign (fin _ _ hu.1 hu.2 v)) fun _ w w₂ hw =>
            relOk_ro hw (readOnly_pure _) (readOnly_pure _) rfl
  · have : cs' = cs := by rw [hp₂] at e1; exact (Option.some.inj (Option.some.inj e1)).symm
    subst this
    obtain ⟨x, r1⟩ : ∃ x, clearskyTambient env s cs' s = (.ok ta, { s with tambCs := x }) := by
      rcases h.tambCs with f | ⟨fn, loc, cs'', ta', f1, f2, f3, f4⟩
      · exact ⟨s.tambCs, clearskyTambient_stored s (f.trans e2)⟩
      · have : cs'' = cs' := by rw [hp₂] at f2; exact (Option.some.inj (Option.some.inj f2)).symm
        subst this
        have : ta' = ta := by rw [e2] at f4; exact (Option.some.inj (Option.some.inj f4)).symm
        subst this
        exact ⟨_, clearskyTambient_computed s fn f1 f3⟩
    refine relOk_runs (clearskyTcell_computed hn r1 e3) (clearskyTcell_stored s₂ e4) ?_
    exact ⟨a1, a3, a6, a7.eq, a8.eq, h.location, fun _ => by show s.poaCs = _; rw [hp, hp₂], nofun, fun _ => e4.symm⟩

theorem clearskyPreprocess_same (h : Cached env s s₂) :
    RelOk (fun u u₂ => Same .clearsky u u₂ ∧ OutSame (u.out .clearsky) (u₂.out .clearsky)) s s₂
      (clearskyPreprocess env) (clearskyPreprocess env) := by
  unfold clearskyPreprocess
  refine relOk_bind (ensureClearskyPoa_cached h) fun _ u u₂ hu => ?_
  refine relOk_self ?_
  obtain ⟨hu, he⟩ := hu
  rw [← he]
  cases hc : u.poaCs with
  | none => exact ⟨rfl, fun a ha => by cases ha⟩
  | some o =>
    cases o with
    | none => exact ⟨rfl, fun a ha => by cases ha⟩
    | some cs =>
      show RelOk _ u u₂ (clearskyTcell env u cs >>= _) (clearskyTcell env u₂ cs >>= _)
      refine relOk_bind (clearskyTcell_same hu hc (he ▸ hc)) fun tcell v v₂ hv => ?_
      unfold clearskyNormalize
      rw [hu.expected, hu.energy]
      cases u₂.powerExpected with
      | none => exact relOk_bind_ro (readOnly_call _) (readOnly_call _) rfl fun r => finish_same _ _ hv
      | some pe => exact relOk_bind_ro (readOnly_call _) (readOnly_call _) rfl fun r => finish_same _ _ hv

theorem analysis_same (h : Cached env s s₂) (analyses : List String) (yoyKw srrKw : String) :
    RelOk (fun u u₂ => u.out c = u₂.out c) s s₂
      (analysis env c analyses yoyKw srrKw) (analysis env c analyses yoyKw srrKw) := by
  unfold analysis
  refine relOk_bind (R := fun u u₂ => Same c u u₂ ∧ OutSame (u.out c) (u₂.out c))
    (m := preprocess env c) (m' := preprocess env c) ?_ fun _ u u₂ hu => ?_
  · cases c
    · exact sensorPreprocess_same h
    · exact clearskyPreprocess_same h
  refine relOk_self ?_
  obtain ⟨hS, o1, o2, o3, o4, o5, o6⟩ := hu
  rw [o3, o6, hS.daily]
  refine relOk_bind_ro (readOnly_attr _) (readOnly_attr _) (attr_rel _ _ _) fun perf => ?_
  refine relOk_bind_ro (readOnly_attr _) (readOnly_attr _) (attr_rel _ _ _) fun insol => ?_
  refine relOk_bind_ro (readOnly_requested _ _ _) (readOnly_requested _ _ _) (requested_rel _ _ _ _ _) fun y => ?_
  refine relOk_bind_ro (readOnly_requested _ _ _) (readOnly_requested _ _ _) (requested_rel _ _ _ _ _) fun z => ?_
  refine relOk_assign ?_
  rw [out_modifyOut, out_modifyOut, o1, o2, o3, o4, o5, o6]

end Verif.Chains
