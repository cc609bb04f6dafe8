import Verif.Model.Chains
import Verif.Props.FilterDict
import Mathlib.Data.List.Dedup

/-! # Lemmas about the analysis chains -/

namespace Verif.Chains
variable {Loc ρ σ α β : Type}

theorem bind_ok {m : M Loc ρ σ α} {f : α → M Loc ρ σ β} {s s'' : TA Loc ρ σ} {b : β} :
    (m >>= f) s = (.ok b, s'') ↔ ∃ a s', m s = (.ok a, s') ∧ f a s' = (.ok b, s'') := by
  show (match m s with | (.ok a, s') => f a s' | (.error e, s') => (.error e, s')) = _ ↔ _
  cases hm : m s with
  | mk r s1 =>
    cases r with
    | error e =>
      constructor
      · intro h; cases h
      · rintro ⟨a, s', h, -⟩; cases h
    | ok a =>
      constructor
      · intro h; exact ⟨a, s1, rfl, h⟩
      · rintro ⟨a', s', h, h'⟩; cases h; exact h'

@[simp] theorem pure_run (a : α) (s : TA Loc ρ σ) : (pure a : M Loc ρ σ α) s = (.ok a, s) := rfl
@[simp] theorem self_run (s : TA Loc ρ σ) : (self : M Loc ρ σ _) s = (.ok s, s) := rfl
@[simp] theorem assign_run (f : TA Loc ρ σ → TA Loc ρ σ) (s : TA Loc ρ σ) :
    (assign f : M Loc ρ σ _) s = (.ok ⟨⟩, f s) := rfl
@[simp] theorem call_run (e : Except PyErr α) (s : TA Loc ρ σ) : (call e : M Loc ρ σ α) s = (e, s) := rfl
@[simp] theorem raise_run (e : PyErr) (s : TA Loc ρ σ) : (raise e : M Loc ρ σ α) s = (.error e, s) := rfl

theorem bind_run (m : M Loc ρ σ α) (f : α → M Loc ρ σ β) (s : TA Loc ρ σ) :
    (m >>= f) s = match m s with | (.ok a, s') => f a s' | (.error e, s') => (.error e, s') := rfl

theorem bind_run_ok {m : M Loc ρ σ α} {f : α → M Loc ρ σ β} {s s' : TA Loc ρ σ} {a : α}
    (h : m s = (.ok a, s')) : (m >>= f) s = f a s' := by rw [bind_run, h]

theorem bind_run_error {m : M Loc ρ σ α} {f : α → M Loc ρ σ β} {s s' : TA Loc ρ σ} {e : PyErr}
    (h : m s = (.error e, s')) : (m >>= f) s = (.error e, s') := by rw [bind_run, h]

/-- `m` reads `self` but does not change it -/
def ReadOnly (m : M Loc ρ σ α) : Prop := ∀ s, (m s).2 = s

theorem readOnly_pure (a : α) : ReadOnly (pure a : M Loc ρ σ α) := fun _ => rfl
theorem readOnly_call (e : Except PyErr α) : ReadOnly (call e : M Loc ρ σ α) := fun _ => rfl
theorem readOnly_raise (e : PyErr) : ReadOnly (raise e : M Loc ρ σ α) := fun _ => rfl
theorem readOnly_self : ReadOnly (self : M Loc ρ σ _) := fun _ => rfl
theorem readOnly_attr (o : Option α) : ReadOnly (attr o : M Loc ρ σ α) := by cases o <;> exact fun _ => rfl
theorem readOnly_required (o : Option α) : ReadOnly (required o : M Loc ρ σ α) := by
  cases o <;> exact fun _ => rfl
theorem readOnly_kwargsOf (v : FVal) : ReadOnly (kwargsOf v : M Loc ρ σ _) := by cases v <;> exact fun _ => rfl

theorem readOnly_bind {m : M Loc ρ σ α} {f : α → M Loc ρ σ β} (hm : ReadOnly m) (hf : ∀ a, ReadOnly (f a)) :
    ReadOnly (m >>= f) := by
  intro s
  rw [bind_run]
  have h := hm s
  cases hr : m s with
  | mk r s' =>
    rw [hr] at h
    simp only at h
    subst h
    cases r with
    | ok a => exact hf a s'
    | error e => rfl

theorem readOnly_component (d : FilterDict FVal) (name : String) {input : M Loc ρ σ α} (hi : ReadOnly input)
    (f : String → α → Except PyErr BMask) : ReadOnly (component d name input f) := by
  unfold component
  cases d.items.get? name with
  | none => exact readOnly_pure _
  | some v =>
    exact readOnly_bind hi fun _ => readOnly_bind (readOnly_kwargsOf v) fun _ =>
      readOnly_bind (readOnly_call _) fun _ => readOnly_pure _

theorem readOnly_clearskyComponent (env : Env Loc ρ σ) (name : String) : ReadOnly (clearskyComponent env name) := by
  unfold clearskyComponent
  refine readOnly_bind readOnly_self fun s => readOnly_bind (readOnly_required _) fun _ =>
    readOnly_bind (readOnly_attr _) fun _ => readOnly_bind (readOnly_required _) fun _ => ?_
  cases s.params.items.get? name with
  | none => exact readOnly_raise _
  | some v =>
    exact readOnly_bind (readOnly_kwargsOf v) fun _ => readOnly_bind (readOnly_call _) fun _ => readOnly_pure _

theorem call_ok {e : Except PyErr α} {s s' : TA Loc ρ σ} {a : α} (h : (call e : M Loc ρ σ α) s = (.ok a, s')) :
    e = .ok a ∧ s' = s := by
  unfold call at h
  rw [Prod.mk.injEq] at h
  exact ⟨h.1, h.2.symm⟩

theorem boolIndex_ok {x y : Series} {m : BMask} (h : boolIndex x m = .ok y) : y = select x m := by
  unfold boolIndex at h
  split_ifs at h
  cases h
  rfl

theorem attr_ok {o : Option α} {s s' : TA Loc ρ σ} {a : α} (h : (attr o : M Loc ρ σ α) s = (.ok a, s')) :
    o = some a ∧ s' = s := by
  cases o with
  | none => cases h
  | some x => cases h; exact ⟨rfl, rfl⟩

theorem required_ok {o : Option α} {s s' : TA Loc ρ σ} {a : α} (h : (required o : M Loc ρ σ α) s = (.ok a, s')) :
    o = some a ∧ s' = s := by
  cases o with
  | none => cases h
  | some x => cases h; exact ⟨rfl, rfl⟩

theorem kwargsOf_ok {v : FVal} {s s' : TA Loc ρ σ} {k : String} (h : (kwargsOf v : M Loc ρ σ _) s = (.ok k, s')) :
    v = .kwargs k ∧ s' = s := by
  cases v with
  | kwargs k' => cases h; exact ⟨rfl, rfl⟩
  | none => cases h
  | mask m => cases h

/-- a component that succeeded: absent, or called with its parameters on its input -/
theorem component_ok {d : FilterDict FVal} {name : String} {input : M Loc ρ σ α} (hi : ReadOnly input)
    {f : String → α → Except PyErr BMask} {s s' : TA Loc ρ σ} {l : List (String × BMask)}
    (h : component d name input f s = (.ok l, s')) :
    s' = s ∧ ((d.items.get? name = none ∧ l = []) ∨
      ∃ kw x m, d.items.get? name = some (.kwargs kw) ∧ input s = (.ok x, s) ∧ f kw x = .ok m ∧ l = [(name, m)]) := by
  have hro := readOnly_component d name hi f s
  rw [h] at hro
  refine ⟨hro, ?_⟩
  simp only at hro
  subst hro
  unfold component at h
  cases hg : d.items.get? name with
  | none => rw [hg] at h; cases h; exact .inl ⟨rfl, rfl⟩
  | some v =>
    rw [hg] at h
    simp only at h
    replace h := bind_ok.mp h
    obtain ⟨x, s1, h1, h⟩ := h
    have e1 := hi s'
    rw [h1] at e1
    simp only at e1
    subst e1
    replace h := bind_ok.mp h
    obtain ⟨k, s2, h2, h⟩ := h
    obtain ⟨rfl, rfl⟩ := kwargsOf_ok h2
    replace h := bind_ok.mp h
    obtain ⟨m, s3, h3, h⟩ := h
    rw [call_run, Prod.mk.injEq] at h3
    rw [pure_run, Prod.mk.injEq, Except.ok.injEq] at h
    exact .inr ⟨k, x, m, rfl, h1, h3.1, h.1.symm⟩

theorem clearskyComponent_ok {env : Env Loc ρ σ} {name : String} {s s' : TA Loc ρ σ} {l : List (String × BMask)}
    (h : clearskyComponent env name s = (.ok l, s')) :
    s' = s ∧ ∃ kw p p' m, s.params.items.get? name = some (.kwargs kw) ∧ s.poa = some p ∧
      s.poaCs = some (some p') ∧ env.clearskyF kw p p' = .ok m ∧ l = [(name, m)] := by
  have hro := readOnly_clearskyComponent env name s
  rw [h] at hro
  refine ⟨hro, ?_⟩
  simp only at hro
  subst hro
  unfold clearskyComponent at h
  replace h := bind_ok.mp h
  obtain ⟨_, _, h0, h⟩ := h
  cases h0
  replace h := bind_ok.mp h
  obtain ⟨p, s1, h1, h⟩ := h
  obtain ⟨hp, rfl⟩ := required_ok h1
  replace h := bind_ok.mp h
  obtain ⟨cs, s2, h2, h⟩ := h
  obtain ⟨hcs, rfl⟩ := attr_ok h2
  replace h := bind_ok.mp h
  obtain ⟨p', s3, h3, h⟩ := h
  obtain ⟨hp', rfl⟩ := required_ok h3
  subst hp'
  cases hg : s3.params.items.get? name with
  | none => rw [hg] at h; cases h
  | some v =>
    rw [hg] at h
    simp only at h
    replace h := bind_ok.mp h
    obtain ⟨k, s4, h4, h⟩ := h
    obtain ⟨rfl, rfl⟩ := kwargsOf_ok h4
    replace h := bind_ok.mp h
    obtain ⟨m, s5, h5, h⟩ := h
    rw [call_run, Prod.mk.injEq] at h5
    rw [pure_run, Prod.mk.injEq, Except.ok.injEq] at h
    exact ⟨k, p, p', m, rfl, hp, hcs, h5.1, h.1.symm⟩

/-! ## frames -/

theorem verdictAt_map {idx : List Int} (f : Int → Bool) (t : Int) :
    verdictAt (idx.map fun t => (t, f t)) t = true ↔ t ∈ idx ∧ f t = true := by
  induction idx with
  | nil => simp [verdictAt]
  | cons u idx ih =>
    rw [List.map_cons]
    unfold verdictAt
    by_cases h : u = t
    · subst h; simp
    · rw [if_neg h, ih, List.mem_cons]
      constructor
      · exact fun ⟨h1, h2⟩ => ⟨.inr h1, h2⟩
      · rintro ⟨h1 | h1, h2⟩
        · exact absurd h1.symm h
        · exact ⟨h1, h2⟩

theorem verdictAt_mem {m : BMask} {t : Int} (h : verdictAt m t = true) : t ∈ m.map Prod.fst := by
  induction m with
  | nil => simp [verdictAt] at h
  | cons r m ih =>
    obtain ⟨u, b⟩ := r
    unfold verdictAt at h
    rw [List.map_cons, List.mem_cons]
    by_cases hu : u = t
    · exact .inl hu.symm
    · rw [if_neg hu] at h; exact .inr (ih h)

theorem verdictAt_default (x : Series) (t : Int) : verdictAt (defaultMask x) t = true ↔ t ∈ x.map Prod.fst := by
  unfold defaultMask
  induction x with
  | nil => simp [verdictAt]
  | cons r x ih =>
    rw [List.map_cons, List.map_cons, List.mem_cons]
    unfold verdictAt
    by_cases h : r.1 = t
    · simp [h]
    · rw [if_neg h, ih]
      exact ⟨.inr, fun h' => h'.resolve_left fun e => h e.symm⟩

theorem mem_unionIndex {ms : List BMask} {t : Int} : t ∈ unionIndex ms ↔ ∃ m ∈ ms, t ∈ m.map Prod.fst := by
  unfold unionIndex
  rw [List.mem_insertionSort, List.mem_dedup, List.mem_flatten]
  simp only [List.mem_map]
  constructor
  · rintro ⟨l, ⟨m, hm, rfl⟩, h⟩; exact ⟨m, hm, by simpa using h⟩
  · rintro ⟨m, hm, h⟩; exact ⟨_, ⟨m, hm, rfl⟩, by simpa using h⟩

theorem verdictAt_allTrue {base : BMask} {comps : List (String × BMask)} {idx : List Int} {t : Int}
    (hidx : ∀ t, t ∈ base.map Prod.fst → t ∈ idx) :
    verdictAt (allTrue idx base comps) t = true ↔
      verdictAt base t = true ∧ ∀ c ∈ comps, verdictAt c.2 t = true := by
  unfold allTrue
  rw [verdictAt_map, Bool.and_eq_true, List.all_eq_true]
  constructor
  · exact fun ⟨_, h⟩ => h
  · exact fun h => ⟨hidx t (verdictAt_mem h.1), h⟩

theorem maskGet_none {m : List (Int × Option Bool)} {t : Int} (h : t ∉ m.map Prod.fst) : maskGet m t = none := by
  induction m with
  | nil => rfl
  | cons r m ih =>
    obtain ⟨u, b⟩ := r
    rw [List.map_cons, List.mem_cons, not_or] at h
    unfold maskGet
    rw [if_neg (fun e => h.1 e.symm), ih h.2]

theorem maskGet_fill (m : List (Int × Option Bool)) (t : Int) :
    maskGet (fillAdHoc m) t = (maskGet m t).map fun b => some (b.getD false) := by
  unfold fillAdHoc
  induction m with
  | nil => rfl
  | cons r m ih =>
    rw [List.map_cons]
    unfold maskGet
    by_cases h : r.1 = t
    · simp [h]
    · simp only [if_neg h]; exact ih

/-- the ad hoc column at a timestamp of the frame: missing values reject, missing timestamps accept -/
theorem verdictAt_adHoc {idx : List Int} {m : List (Int × Option Bool)} {t : Int} (ht : t ∈ idx) :
    verdictAt (adHocColumn idx (fillAdHoc m)) t = true ↔ ∀ b, maskGet m t = some b → b = some true := by
  unfold adHocColumn
  split_ifs with h
  · have hm : t ∈ m.map Prod.fst := by
      have : t ∈ (fillAdHoc m).map Prod.fst := h ▸ ht
      simpa [fillAdHoc, List.map_map, Function.comp] using this
    clear h ht
    unfold fillAdHoc
    rw [List.map_map]
    induction m with
    | nil => simp at hm
    | cons r m ih =>
      obtain ⟨u, b⟩ := r
      rw [List.map_cons, List.mem_cons] at hm
      simp only [List.map_cons, Function.comp, Option.getD_some]
      unfold verdictAt maskGet
      by_cases hu : u = t
      · simp only [hu, if_true, Option.some.injEq, forall_eq']
        cases b with
        | none => simp
        | some b => simp
      · simp only [if_neg hu]
        exact ih (hm.resolve_left fun e => hu e.symm)
  · rw [verdictAt_map, maskGet_fill]
    simp only [ht, true_and]
    cases maskGet m t with
    | none => simp
    | some b => cases b <;> simp

end Verif.Chains

namespace Verif.Chains
variable {Loc ρ σ α β : Type}

theorem casePoa_ok {s s' : TA Loc ρ σ} {c : Case} {p : Option Series} (h : casePoa s c s = (.ok p, s')) :
    s' = s ∧ ((c = .sensor ∧ s.poa = p) ∨ (c = .clearsky ∧ s.poaCs = some p)) := by
  cases c with
  | sensor => cases h; exact ⟨rfl, .inl ⟨rfl, rfl⟩⟩
  | clearsky => obtain ⟨a, b⟩ := attr_ok h; exact ⟨b, .inr ⟨rfl, a⟩⟩

theorem caseTcell_ok {s s' : TA Loc ρ σ} {c : Case} {p : Option Series} (h : caseTcell s c s = (.ok p, s')) :
    s' = s ∧ ((c = .sensor ∧ s.tcell = p) ∨ (c = .clearsky ∧ s.tcellCs = some p)) := by
  cases c with
  | sensor => cases h; exact ⟨rfl, .inl ⟨rfl, rfl⟩⟩
  | clearsky => obtain ⟨a, b⟩ := attr_ok h; exact ⟨b, .inr ⟨rfl, a⟩⟩

theorem adHoc_ok {get : TA Loc ρ σ → FilterDict FVal} {put : FilterDict FVal → TA Loc ρ σ → TA Loc ρ σ}
    {idx : List Int} {s s' : TA Loc ρ σ} {l : List (String × BMask)} (h : adHoc get put idx s = (.ok l, s')) :
    (((get s).items.get? "ad_hoc_filter" = none ∨ (get s).items.get? "ad_hoc_filter" = some .none) ∧ l = [] ∧ s' = s) ∨
    ∃ m, (get s).items.get? "ad_hoc_filter" = some (.mask m) ∧ l = [("ad_hoc_filter", adHocColumn idx (fillAdHoc m))] ∧
      s' = put { get s with items := (get s).items.set "ad_hoc_filter" (.mask (fillAdHoc m)) } s := by
  unfold adHoc at h
  replace h := bind_ok.mp h
  obtain ⟨s0, _, h0, h⟩ := h
  rw [self_run, Prod.mk.injEq, Except.ok.injEq] at h0
  obtain ⟨rfl, rfl⟩ := h0
  cases hg : (get s).items.get? "ad_hoc_filter" with
  | none => rw [hg] at h; cases h; exact .inl ⟨.inl rfl, rfl, rfl⟩
  | some v =>
    rw [hg] at h
    cases v with
    | none => cases h; exact .inl ⟨.inr rfl, rfl, rfl⟩
    | kwargs k => cases h
    | mask m =>
      simp only at h
      replace h := bind_ok.mp h
      obtain ⟨_, s1, h1, h⟩ := h
      rw [assign_run, Prod.mk.injEq] at h1
      rw [pure_run, Prod.mk.injEq, Except.ok.injEq] at h
      exact .inr ⟨m, rfl, h.1.symm, by rw [← h.2, ← h1.2]⟩

theorem adHoc_accepts {get : TA Loc ρ σ → FilterDict FVal} {put : FilterDict FVal → TA Loc ρ σ → TA Loc ρ σ}
    {idx : List Int} {s s' : TA Loc ρ σ} {l : List (String × BMask)} (h : adHoc get put idx s = (.ok l, s'))
    {t : Int} (ht : t ∈ idx) : (∀ x ∈ l, verdictAt x.2 t = true) ↔
      ∀ m, (get s).items.get? "ad_hoc_filter" = some (.mask m) → ∀ b, maskGet m t = some b → b = some true := by
  rcases adHoc_ok h with ⟨hg, rfl, -⟩ | ⟨m, hg, rfl, -⟩
  · constructor
    · intro _ m hm
      rcases hg with hg | hg <;> rw [hg] at hm <;> cases hm
    · intro _ x hx; cases hx
  · simp only [List.mem_singleton, forall_eq, verdictAt_adHoc ht]
    constructor
    · intro hb m' hm'
      rw [hg] at hm'
      cases hm'
      exact hb
    · exact fun hb => hb m hg

end Verif.Chains
