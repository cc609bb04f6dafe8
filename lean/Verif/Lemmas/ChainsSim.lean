import Verif.Lemmas.Chains

/-! # Two runs of the analysis chains side by side -/

namespace Verif.Chains
variable {Loc ρ σ α β : Type}

/-- a filter parameter after the in-place replacement of missing values -/
def normV : FVal → FVal
  | .mask m => .mask (fillAdHoc m)
  | v => v

/-- two filter dictionaries that agree up to the in-place replacement of missing values -/
def FillEq (d d' : FilterDict FVal) : Prop :=
  ∀ k, (d.items.get? k).map normV = (d'.items.get? k).map normV

theorem fillAdHoc_idem (m : List (Int × Option Bool)) : fillAdHoc (fillAdHoc m) = fillAdHoc m := by
  unfold fillAdHoc
  rw [List.map_map]
  apply List.map_congr_left
  intro r _
  cases h : r.2 <;> simp [Function.comp, h]

theorem normV_idem (v : FVal) : normV (normV v) = normV v := by
  cases v <;> simp [normV, fillAdHoc_idem]

theorem FillEq.refl (d : FilterDict FVal) : FillEq d d := fun _ => rfl
theorem FillEq.symm {d d' : FilterDict FVal} (h : FillEq d d') : FillEq d' d := fun k => (h k).symm
theorem FillEq.trans {d d' d'' : FilterDict FVal} (h : FillEq d d') (h' : FillEq d' d'') : FillEq d d'' :=
  fun k => (h k).trans (h' k)

theorem FillEq.set {d : FilterDict FVal} {k : String} {v w : FVal} (h : d.items.get? k = some v)
    (hv : normV v = normV w) : FillEq d { d with items := d.items.set k w } := by
  intro k'
  rw [Dict.get?_set]
  split_ifs with e
  · subst e; rw [h]; simp [hv]
  · rfl

theorem FillEq.has {d d' : FilterDict FVal} (h : FillEq d d') (k : String) : d.items.has k = d'.items.has k := by
  have := congrArg Option.isSome (h k)
  unfold Dict.has
  simpa using this

/-- a dictionary after the in-place replacement of missing values -/
def normItems (d : Dict FVal) : Dict FVal := d.map fun p => (p.1, normV p.2)

/-- two filter dictionaries with the same known names and, up to the in-place replacement of missing values, the same entries -/
def FillSame (d d' : FilterDict FVal) : Prop := d.valid = d'.valid ∧ normItems d.items = normItems d'.items

theorem normItems_get? (d : Dict FVal) (k : String) : (normItems d).get? k = (d.get? k).map normV := by
  induction d with
  | nil => rfl
  | cons p d ih =>
    obtain ⟨k', v⟩ := p
    show (if k' = k then some (normV v) else Dict.get? (normItems d) k) = ((if k' = k then some v else Dict.get? d k).map normV)
    split_ifs
    · rfl
    · exact ih

theorem normItems_set (d : Dict FVal) (k : String) (v : FVal) : normItems (d.set k v) = (normItems d).set k (normV v) := by
  induction d with
  | nil => rfl
  | cons p d ih =>
    obtain ⟨k', v'⟩ := p
    show normItems (if k' = k then (k, v) :: d else (k', v') :: Dict.set d k v) =
      if k' = k then (k, normV v) :: normItems d else (k', normV v') :: Dict.set (normItems d) k (normV v)
    split_ifs
    · rfl
    · rw [← ih]; rfl

theorem set_get? {V : Type} {d : Dict V} {k : String} {v : V} (h : d.get? k = some v) : d.set k v = d := by
  induction d with
  | nil => cases h
  | cons p d ih =>
    obtain ⟨k', v'⟩ := p
    change (if k' = k then some v' else Dict.get? d k) = some v at h
    show (if k' = k then (k, v) :: d else (k', v') :: Dict.set d k v) = (k', v') :: d
    split_ifs at h ⊢ with e
    · cases h; rw [e]
    · rw [ih h]

theorem FillSame.refl (d : FilterDict FVal) : FillSame d d := ⟨rfl, rfl⟩
theorem FillSame.trans {d d' d'' : FilterDict FVal} (h : FillSame d d') (h' : FillSame d' d'') : FillSame d d'' :=
  ⟨h.1.trans h'.1, h.2.trans h'.2⟩

theorem FillSame.eq {d d' : FilterDict FVal} (h : FillSame d d') : FillEq d d' := by
  intro k
  rw [← normItems_get?, ← normItems_get?, h.2]

theorem FillSame.set {d : FilterDict FVal} {k : String} {v w : FVal} (h : d.items.get? k = some v)
    (hv : normV v = normV w) : FillSame d { d with items := d.items.set k w } := by
  refine ⟨rfl, ?_⟩
  show normItems d.items = normItems (d.items.set k w)
  rw [normItems_set, set_get?]
  rw [normItems_get?, h, Option.map_some, hv]

/-- two runs from related states end with the same outcome in related states -/
def RelAt (R : TA Loc ρ σ → TA Loc ρ σ → Prop) (s s₂ : TA Loc ρ σ) (m m' : M Loc ρ σ α) : Prop :=
  (m s).1 = (m' s₂).1 ∧ R (m s).2 (m' s₂).2

variable {R : TA Loc ρ σ → TA Loc ρ σ → Prop} {s s₂ : TA Loc ρ σ}

theorem relAt_bind {m m' : M Loc ρ σ α} {f f' : α → M Loc ρ σ β} (h : RelAt R s s₂ m m')
    (hf : ∀ a u u₂, m s = (.ok a, u) → m' s₂ = (.ok a, u₂) → R u u₂ → RelAt R u u₂ (f a) (f' a)) :
    RelAt R s s₂ (m >>= f) (m' >>= f') := by
  unfold RelAt at h ⊢
  rw [bind_run, bind_run]
  cases h1 : m s with
  | mk r u =>
    cases h2 : m' s₂ with
    | mk r' u₂ =>
      rw [h1, h2] at h
      obtain ⟨rfl, hR⟩ := h
      cases r with
      | error e => exact ⟨rfl, hR⟩
      | ok a => exact hf a u u₂ (by rw [h1]) (by rw [h2]) hR

theorem relAt_bind_ro {m m' : M Loc ρ σ α} {f f' : α → M Loc ρ σ β} (hR : R s s₂) (hm : ReadOnly m)
    (hm' : ReadOnly m') (h : (m s).1 = (m' s₂).1) (hf : ∀ a, RelAt R s s₂ (f a) (f' a)) :
    RelAt R s s₂ (m >>= f) (m' >>= f') := by
  refine relAt_bind ⟨h, by rw [hm, hm']; exact hR⟩ fun a u u₂ h1 h2 _ => ?_
  have e1 := hm s
  have e2 := hm' s₂
  rw [h1] at e1
  rw [h2] at e2
  simp only at e1 e2
  subst e1 e2
  exact hf a

theorem relAt_ro {m m' : M Loc ρ σ α} (hR : R s s₂) (hm : ReadOnly m) (hm' : ReadOnly m')
    (h : (m s).1 = (m' s₂).1) : RelAt R s s₂ m m' :=
  ⟨h, by rw [hm, hm']; exact hR⟩

theorem relAt_pure (hR : R s s₂) (a : α) : RelAt R s s₂ (pure a : M Loc ρ σ α) (pure a) := ⟨rfl, hR⟩
theorem relAt_call (hR : R s s₂) (a : Except PyErr α) : RelAt R s s₂ (call a : M Loc ρ σ α) (call a) := ⟨rfl, hR⟩
theorem relAt_raise (hR : R s s₂) (e : PyErr) : RelAt R s s₂ (raise e : M Loc ρ σ α) (raise e) := ⟨rfl, hR⟩
theorem relAt_required (hR : R s s₂) (a : Option α) : RelAt R s s₂ (required a : M Loc ρ σ α) (required a) := by
  cases a <;> exact ⟨rfl, hR⟩
theorem relAt_attr (hR : R s s₂) (a : Option α) : RelAt R s s₂ (attr a : M Loc ρ σ α) (attr a) := by
  cases a <;> exact ⟨rfl, hR⟩
theorem relAt_self {f f' : TA Loc ρ σ → M Loc ρ σ α} (h : RelAt R s s₂ (f s) (f' s₂)) :
    RelAt R s s₂ (self >>= f) (self >>= f') := h

theorem normV_kwargs {v : FVal} {k : String} (h : normV v = .kwargs k) : v = .kwargs k := by
  cases v <;> simp_all [normV]

theorem kwargsOf_norm {v w : FVal} (h : normV v = normV w) (s s₂ : TA Loc ρ σ) :
    ((kwargsOf v : M Loc ρ σ _) s).1 = ((kwargsOf w : M Loc ρ σ _) s₂).1 := by
  cases v <;> cases w <;> simp_all [normV, kwargsOf, raise]

/-- a component depends on its dictionary only up to the replacement of missing values -/
theorem component_rel {d d' : FilterDict FVal} (hd : FillEq d d') (name : String) {input input' : M Loc ρ σ α}
    (hi : ReadOnly input) (hi' : ReadOnly input') (h : (input s).1 = (input' s₂).1)
    (f : String → α → Except PyErr BMask) :
    (component d name input f s).1 = (component d' name input' f s₂).1 := by
  have hk := hd name
  unfold component
  cases hg : d.items.get? name with
  | none => rw [hg] at hk; cases hg' : d'.items.get? name with
    | none => rfl
    | some v => rw [hg'] at hk; cases hk
  | some v =>
    rw [hg] at hk
    cases hg' : d'.items.get? name with
    | none => rw [hg'] at hk; cases hk
    | some w =>
      rw [hg', Option.map_some, Option.map_some, Option.some.injEq] at hk
      exact (relAt_bind_ro (R := fun _ _ => True) trivial hi hi' h fun a =>
        relAt_bind_ro trivial (readOnly_kwargsOf _) (readOnly_kwargsOf _) (kwargsOf_norm hk s s₂) fun kw =>
          relAt_bind_ro trivial (readOnly_call _) (readOnly_call _) rfl fun m => relAt_pure trivial _).1

end Verif.Chains
