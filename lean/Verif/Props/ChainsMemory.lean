import Verif.Lemmas.ChainsMemory
import Verif.Props.ChainsState

/-! # C137: an analysis has no memory of earlier analyses -/

namespace Verif.Chains
variable {Loc ρ σ : Type}

/-! ## specification -/

/-- the calls of a history that set something: those other than analyses -/
def Spec.isSetting : Call Loc → Bool
  | .analysis .. => false
  | _ => true

/-- the calls of a history that change the filters -/
def Spec.isFilterSetting : Call Loc → Bool
  | .analysis .. => false
  | .setClearsky .. => false
  | _ => true

/-- an analysis of case `c` with the same arguments ends alike on two objects: the same exception, or success with the same
filters, insolation, performance and results stored -/
def Spec.Alike (env : Env Loc ρ σ) (c : Case) (u w : TA Loc ρ σ) : Prop :=
  ∀ (analyses : List String) (yoyKw srrKw : String),
    (analysis env c analyses yoyKw srrKw u).1 = (analysis env c analyses yoyKw srrKw w).1 ∧
    ((analysis env c analyses yoyKw srrKw u).1 = .ok () →
      (analysis env c analyses yoyKw srrKw u).2.out c = (analysis env c analyses yoyKw srrKw w).2.out c)

/-- the mask `m` after some of its missing values were replaced by False -/
def Spec.FilledMask (m m' : List (Int × Option Bool)) : Prop :=
  List.Forall₂ (fun r r' => r.1 = r'.1 ∧ (r.2 = r'.2 ∨ r.2 = none ∧ r'.2 = some false)) m m'

/-- the dict `d` after some missing values of the masks it holds were replaced by False -/
def Spec.Filled (d d' : FilterDict FVal) : Prop :=
  d.valid = d'.valid ∧ List.Forall₂ (fun a b : String × FVal => a.1 = b.1 ∧
    (a.2 = b.2 ∨ ∃ m m', a.2 = .mask m ∧ b.2 = .mask m' ∧ Spec.FilledMask m m')) d.items d'.items

/-! ## settings keep what earlier analyses may have stored -/

theorem FillSame.construct {d d' : FilterDict FVal} (h : FillSame d d') (kv : List (String × FVal)) :
    FilterDict.construct d.valid kv = FilterDict.construct d'.valid kv := by rw [h.1]

theorem base_setting {env : Env Loc ρ σ} {s s₂ : TA Loc ρ σ} (k : Call Loc) (hk : Spec.isFilterSetting k = true)
    (h : Base env s s₂) : Base env (k.run env s).2 (k.run env s₂).2 ∧
      (Cached env s s₂ → Cached env (k.run env s).2 (k.run env s₂).2) := by
  obtain ⟨a1, a2, a3, a4, a5, a6, a7, a8, a9⟩ := h
  have kp : ∀ d d', FillSame d d' → Base env { s with params := d } { s₂ with params := d' } ∧
      (Cached env s s₂ → Cached env { s with params := d } { s₂ with params := d' }) := fun d d' hd =>
    ⟨⟨a1, a2, a3, a4, a5, a6, hd, a8, a9⟩, fun hc => ⟨⟨a1, a2, a3, a4, a5, a6, hd, a8, a9⟩, hc.location, hc.tilt, hc.poaCs, hc.tambCs, hc.tcellCs⟩⟩
  have kq : ∀ d d', FillSame d d' → Base env { s with paramsAgg := d } { s₂ with paramsAgg := d' } ∧
      (Cached env s s₂ → Cached env { s with paramsAgg := d } { s₂ with paramsAgg := d' }) := fun d d' hd =>
    ⟨⟨a1, a2, a3, a4, a5, a6, a7, hd, a9⟩, fun hc => ⟨⟨a1, a2, a3, a4, a5, a6, a7, hd, a9⟩, hc.location, hc.tilt, hc.poaCs, hc.tambCs, hc.tcellCs⟩⟩
  cases k with
  | analysis => cases hk
  | setClearsky => cases hk
  | editFilterParams op => exact kp _ _ (a7.step op)
  | editFilterParamsAggregated op => exact kq _ _ (a8.step op)
  | setFilterParams d =>
    show Base env (Chains.setFilterParams d s).2 (Chains.setFilterParams d s₂).2 ∧
      (_ → Cached env (Chains.setFilterParams d s).2 (Chains.setFilterParams d s₂).2)
    unfold Chains.setFilterParams
    cases d with
    | none => exact kp _ _ a7
    | some d =>
      rw [bind_run_ok (self_run s), bind_run_ok (show (required (some d) : M Loc ρ σ _) s = (.ok d, s) from rfl),
        bind_run_ok (self_run s₂), bind_run_ok (show (required (some d) : M Loc ρ σ _) s₂ = (.ok d, s₂) from rfl), a7.construct d]
      cases FilterDict.construct s₂.params.valid d with
      | error e => exact kp _ _ a7
      | ok new => exact kp _ _ (.refl _)
  | setFilterParamsAggregated d =>
    show Base env (Chains.setFilterParamsAggregated d s).2 (Chains.setFilterParamsAggregated d s₂).2 ∧
      (_ → Cached env (Chains.setFilterParamsAggregated d s).2 (Chains.setFilterParamsAggregated d s₂).2)
    unfold Chains.setFilterParamsAggregated
    cases d with
    | none => exact kq _ _ a8
    | some d =>
      rw [bind_run_ok (self_run s), bind_run_ok (show (required (some d) : M Loc ρ σ _) s = (.ok d, s) from rfl),
        bind_run_ok (self_run s₂), bind_run_ok (show (required (some d) : M Loc ρ σ _) s₂ = (.ok d, s₂) from rfl), a8.construct d]
      cases FilterDict.construct s₂.paramsAgg.valid d with
      | error e => exact kq _ _ a8
      | ok new => exact kq _ _ (.refl _)

/-- the state after `setClearsky` -/
theorem setClearsky_run (env : Env Loc ρ σ) (loc : Option Loc) (p tc ta : Option Series) :
    (∃ e, ∀ s : TA Loc ρ σ, setClearsky env loc p tc ta s = (.error e, s)) ∨
    ∃ p' tc' ta', ∀ s : TA Loc ρ σ, setClearsky env loc p tc ta s = (.ok (), { s with
      location := some loc
      tilt := true
      poaCs := some p'
      tcellCs := some tc'
      tambCs := some ta' }) := by
  unfold setClearsky
  cases interpOpt env p with
  | error e => exact .inl ⟨e, fun _ => rfl⟩
  | ok p' =>
    cases interpOpt env tc with
    | error e => exact .inl ⟨e, fun _ => rfl⟩
    | ok tc' =>
      cases interpOpt env ta with
      | error e => exact .inl ⟨e, fun _ => rfl⟩
      | ok ta' => exact .inr ⟨p', tc', ta', fun _ => rfl⟩

theorem cached_setClearsky {env : Env Loc ρ σ} {s s₂ : TA Loc ρ σ} {loc : Option Loc} {p tc ta : Option Series}
    (h : Base env s s₂) {s' : TA Loc ρ σ} (hok : (setClearsky env loc p tc ta s').1 = .ok ()) :
    Cached env (setClearsky env loc p tc ta s).2 (setClearsky env loc p tc ta s₂).2 := by
  obtain ⟨a1, a2, a3, a4, a5, a6, a7, a8, a9⟩ := h
  rcases setClearsky_run env loc p tc ta with ⟨e, he⟩ | ⟨p', tc', ta', he⟩
  · rw [he] at hok; cases hok
  · rw [he, he]
    exact ⟨⟨a1, a2, a3, a4, a5, a6, a7, a8, a9⟩, rfl, rfl, .inl rfl, .inl rfl, .inl rfl⟩

theorem cached_setting {env : Env Loc ρ σ} {s s₂ : TA Loc ρ σ} (k : Call Loc) (hk : Spec.isSetting k = true)
    (h : Cached env s s₂) : Cached env (k.run env s).2 (k.run env s₂).2 := by
  cases k with
  | analysis => cases hk
  | setClearsky loc p tc ta =>
    rcases setClearsky_run env loc p tc ta with ⟨e, he⟩ | ⟨p', tc', ta', he⟩
    · show Cached env (Chains.setClearsky env loc p tc ta s).2 (Chains.setClearsky env loc p tc ta s₂).2
      rw [he, he]; exact h
    · exact cached_setClearsky h.toBase (s' := s) (by rw [he])
  | setFilterParams d => exact (base_setting (.setFilterParams d) rfl h.toBase).2 h
  | setFilterParamsAggregated d => exact (base_setting (.setFilterParamsAggregated d) rfl h.toBase).2 h
  | editFilterParams op => exact (base_setting (.editFilterParams op) rfl h.toBase).2 h
  | editFilterParamsAggregated op => exact (base_setting (.editFilterParamsAggregated op) rfl h.toBase).2 h

theorem cached_history {env : Env Loc ρ σ} (calls : List (Call Loc)) : ∀ {w u : TA Loc ρ σ}, Cached env w u →
    Cached env (runAll env w (calls.filter Spec.isSetting)) (runAll env u calls) := by
  induction calls with
  | nil => exact fun h => h
  | cons k calls ih =>
    intro w u h
    by_cases hk : Spec.isSetting k = true
    · rw [List.filter_cons_of_pos hk]
      exact ih (cached_setting k hk h)
    · rw [List.filter_cons_of_neg hk]
      cases k with
      | analysis c a y z => exact ih (cached_after c a y z h)
      | _ => exact absurd rfl hk

theorem base_history {env : Env Loc ρ σ} (calls : List (Call Loc)) : ∀ {w u : TA Loc ρ σ}, Base env w u →
    Base env (runAll env w (calls.filter Spec.isFilterSetting)) (runAll env u calls) := by
  induction calls with
  | nil => exact fun h => h
  | cons k calls ih =>
    intro w u h
    by_cases hk : Spec.isFilterSetting k = true
    · rw [List.filter_cons_of_pos hk]
      exact ih (base_setting k hk h).1
    · rw [List.filter_cons_of_neg hk]
      cases k with
      | analysis c a y z => exact ih (base_after c a y z h)
      | setClearsky loc p tc ta =>
        refine ih ?_
        show Base env w (Chains.setClearsky env loc p tc ta u).2
        obtain ⟨a1, a2, a3, a4, a5, a6, a7, a8, a9⟩ := h
        rcases setClearsky_run env loc p tc ta with ⟨e, he⟩ | ⟨p', tc', ta', he⟩
        · rw [he]; exact ⟨a1, a2, a3, a4, a5, a6, a7, a8, a9⟩
        · rw [he]; exact ⟨a1, a2, a3, a4, a5, a6, a7, a8, a9⟩
      | _ => exact absurd rfl hk

theorem Cached.alike {env : Env Loc ρ σ} {w u : TA Loc ρ σ} (h : Cached env w u) (c : Case) : Spec.Alike env c u w := by
  intro a y z
  have := analysis_same (c := c) h a y z
  exact ⟨this.1.symm, fun hok => (this.2 () (this.1.trans hok)).symm⟩

/-! ## C137 -/

/-- **C137.** Whatever analyses (successful or failing, of either case, with whatever arguments) a history contains, the next
analysis ends as it would if the history consisted of its other calls only: with the same exception, or with the same filters,
insolation, performance and results stored. -/
theorem C137_no_memory (env : Env Loc ρ σ) (c : Case) (s : TA Loc ρ σ) (calls : List (Call Loc)) :
    Spec.Alike env c (runAll env s calls) (runAll env s (calls.filter Spec.isSetting)) :=
  (cached_history calls (.refl env s)).alike c

/-- **C137 (repetition).** A successful analysis run again with the same arguments, after further analyses in any number,
succeeds again and stores the same. -/
theorem C137_repeat (env : Env Loc ρ σ) (c : Case) (s : TA Loc ρ σ) (analyses : List String) (yoyKw srrKw : String)
    (hok : (analysis env c analyses yoyKw srrKw s).1 = .ok ()) (later : List (Call Loc))
    (hlater : ∀ k ∈ later, ∃ c' a y z, k = .analysis c' a y z) :
    let u := runAll env s (.analysis c analyses yoyKw srrKw :: later)
    (analysis env c analyses yoyKw srrKw u).1 = .ok () ∧
    (analysis env c analyses yoyKw srrKw u).2.out c = (analysis env c analyses yoyKw srrKw s).2.out c := by
  have hf : (Call.analysis c analyses yoyKw srrKw :: later).filter Spec.isSetting = [] := by
    rw [List.filter_eq_nil_iff]
    intro k hk
    rcases List.mem_cons.mp hk with rfl | hk
    · exact Bool.false_ne_true
    · obtain ⟨_, _, _, _, rfl⟩ := hlater k hk
      exact Bool.false_ne_true
  have h := C137_no_memory env c s (.analysis c analyses yoyKw srrKw :: later) analyses yoyKw srrKw
  rw [hf] at h
  exact ⟨h.1.trans hok, h.2 (h.1.trans hok)⟩

/-- **C137 (new clear-sky settings).** After a successful call of `set_clearsky` earlier calls of `set_clearsky` do not matter
either: of what came before, only the changes of the filters do. -/
theorem C137_clearsky_supersedes (env : Env Loc ρ σ) (c : Case) (s : TA Loc ρ σ) (before after : List (Call Loc))
    (loc : Option Loc) (p tc ta : Option Series) (hok : (setClearsky env loc p tc ta s).1 = .ok ()) :
    Spec.Alike env c (runAll env s (before ++ .setClearsky loc p tc ta :: after))
      (runAll env s (before.filter Spec.isFilterSetting ++ .setClearsky loc p tc ta :: after.filter Spec.isSetting)) := by
  have hb := base_history before (.refl env s)
  have hc := cached_setClearsky hb hok
  have := (cached_history after hc).alike c
  unfold runAll at this ⊢
  rw [List.foldl_append, List.foldl_append]
  exact this

theorem Spec.Filled.same {d d' : FilterDict FVal} (h : Spec.Filled d d') : FillSame d d' := by
  obtain ⟨hv, hi⟩ := h
  refine ⟨hv, ?_⟩
  generalize d.items = x at hi
  generalize d'.items = x' at hi
  induction hi with
  | nil => rfl
  | @cons a b l l' hab _ ih =>
    obtain ⟨e1, e2⟩ := hab
    show (a.1, normV a.2) :: normItems l = (b.1, normV b.2) :: normItems l'
    rw [ih, e1]
    congr 2
    rcases e2 with e2 | ⟨m, m', e2, e3, hm⟩
    · rw [e2]
    · rw [e2, e3]
      show FVal.mask (fillAdHoc m) = FVal.mask (fillAdHoc m')
      congr 1
      clear e2 e3
      induction hm with
      | nil => rfl
      | @cons r r' m m' hr _ ih =>
        show (r.1, some (r.2.getD false)) :: fillAdHoc m = (r'.1, some (r'.2.getD false)) :: fillAdHoc m'
        rw [ih, hr.1]
        rcases hr.2 with h | ⟨h1, h2⟩
        · rw [h]
        · rw [h1, h2]; rfl

/-- **C137 (shared masks).** An analysis replaces the missing values of the user's own masks by False in place, so that everyone who
holds the same mask sees the change: another object, or the other dict of this one. No analysis is influenced by such replacements. -/
theorem C137_shared_mask (env : Env Loc ρ σ) (c : Case) (s : TA Loc ρ σ) {d d' : FilterDict FVal} (hd : Spec.Filled s.params d)
    (hd' : Spec.Filled s.paramsAgg d') :
    Spec.Alike env c { s with
      params := d
      paramsAgg := d' } s := by
  refine Cached.alike ?_ c
  exact ⟨⟨rfl, rfl, rfl, rfl, rfl, rfl, hd.same, hd'.same, .inl rfl⟩, rfl, rfl, .inl rfl, .inl rfl, .inl rfl⟩

/-- a mask without a verdict on one sample, before and after -/
example : Spec.Filled ⟨["ad_hoc_filter"], [("ad_hoc_filter", .mask [(0, some true), (1, none)])]⟩
    ⟨["ad_hoc_filter"], [("ad_hoc_filter", .mask [(0, some true), (1, some false)])]⟩ :=
  ⟨rfl, .cons ⟨rfl, .inr ⟨_, _, rfl, rfl, .cons ⟨rfl, .inl rfl⟩ (.cons ⟨rfl, .inr ⟨rfl, rfl⟩⟩ .nil)⟩⟩ .nil⟩

/-- a history with a failing analysis, filters and both analyses -/
def exHistory : List (Call Unit) :=
  [.analysis .clearsky ["yoy_degradation"] "" "", .setClearsky (some ()) none none none,
    .analysis .clearsky ["yoy_degradation"] "" "", .analysis .sensor ["srr_soiling"] "" "",
    .editFilterParams (.delItem "clip_filter")]

example : (runAll exEnv exTA exHistory).clearsky.results = some ⟨some 2, none⟩ ∧
    exHistory.filter Spec.isSetting = [exHistory[1], exHistory[4]] ∧
    (analysis exEnv .sensor ["yoy_degradation"] "" "" (runAll exEnv exTA exHistory)).2.sensor.results = some ⟨some 3, none⟩ := by
  refine ⟨by decide +kernel, rfl, by decide +kernel⟩

end Verif.Chains
