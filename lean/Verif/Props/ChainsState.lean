import Verif.Props.ChainsFilter
import Mathlib.Data.List.Induction

/-! # Properties C55, C56, C57 (two years of data, independence of the analyses, plots) -/

namespace Verif.Chains
variable {Loc ρ σ α : Type}

/-! ## C55 -/

theorem getLast?_cons_map (r : Int × Cell) (x : Series) :
    ((r :: x).map Prod.fst).getLast? = some (((r :: x).map Prod.fst).getLast (by simp)) :=
  List.getLast?_eq_getLast_of_ne_nil _

/-- **C55 (the check).** The check passes exactly for a series with a first and a last row at least 730 days
apart; otherwise (in particular for an empty series) it raises ValueError. -/
theorem C55_check (x : Series) :
    (filterCheck x = .ok () ↔ ∃ a b, (x.map Prod.fst).head? = some a ∧ (x.map Prod.fst).getLast? = some b ∧
      730 * dayNs ≤ b - a) ∧
    (filterCheck x = .error .valueError ↔ filterCheck x ≠ .ok ()) := by
  constructor
  · unfold filterCheck spanNs
    cases x with
    | nil => simp [dayNs]
    | cons r x =>
      rw [getLast?_cons_map]
      simp only [List.map_cons, List.head?_cons, Option.some.injEq, exists_eq_left', exists_and_left]
      constructor
      · intro h
        by_contra hc
        rw [if_pos (by omega)] at h
        cases h
      · intro h
        rw [if_neg (by omega)]
  · unfold filterCheck
    split_ifs <;> simp

/-- **C55 (whole analysis).** A successful analysis with 'yoy_degradation' has worked on an aggregated series
whose first and last rows are at least 730 days apart. Missing: the rows need not hold data
(`C55_usable_refuted`), and a pure soiling analysis is not checked (`C55_srr_unchecked`). -/
theorem C55_analysis_partial {env : Env Loc ρ σ} {c : Case} {analyses : List String} {yoyKw srrKw : String}
    {s s' : TA Loc ρ σ} (h : analysis env c analyses yoyKw srrKw s = (.ok (), s'))
    (hy : "yoy_degradation" ∈ analyses) :
    ∃ perf a b, (s'.out c).performance = some perf ∧ (perf.map Prod.fst).head? = some a ∧
      (perf.map Prod.fst).getLast? = some b ∧ 730 * dayNs ≤ b - a := by
  have H : Stable env c fun _ => True := by constructor <;> intros <;> trivial
  rcases analysis_keeps H (s := s) trivial analyses yoyKw srrKw with ⟨e, u, -, he⟩ | ⟨u, perf, insol, y, z, -, -, hp, -, hyy, -, he⟩
  · rw [h] at he; cases he
  · rw [h, Prod.mk.injEq] at he
    unfold requested at hyy
    rw [if_pos hy, call_run, Prod.mk.injEq] at hyy
    have hc : filterCheck perf = .ok () := by
      have := hyy.1
      unfold yoyDegradation at this
      cases hf : filterCheck perf with
      | ok a => rfl
      | error e => rw [hf] at this; cases this
    obtain ⟨a, b, h1, h2, h3⟩ := (C55_check perf).1.mp hc
    refine ⟨perf, a, b, ?_, h1, h2, h3⟩
    rw [he.2, out_modifyOut]
    exact hp

/-- **C55 (less than two years).** If the preprocessing ends with less than two years, the analysis raises
ValueError and stores no result. -/
theorem C55_too_short {env : Env Loc ρ σ} {c : Case} {analyses : List String} {yoyKw srrKw : String}
    {s u : TA Loc ρ σ} (hp : preprocess env c s = (.ok (), u)) {perf insol : Series}
    (h1 : (u.out c).performance = some perf) (h2 : (u.out c).insolation = some insol)
    (hy : "yoy_degradation" ∈ analyses) (hs : filterCheck perf ≠ .ok ()) :
    analysis env c analyses yoyKw srrKw s = (.error .valueError, u) := by
  have hv := (C55_check perf).2.mpr hs
  unfold analysis
  rw [bind_run_ok hp, bind_run_ok (self_run u), h1, h2,
    bind_run_ok (show (attr (some perf) : M Loc ρ σ _) u = (.ok perf, u) from rfl),
    bind_run_ok (show (attr (some insol) : M Loc ρ σ _) u = (.ok insol, u) from rfl)]
  refine bind_run_error ?_
  unfold requested yoyDegradation
  rw [if_pos hy, hv]
  rfl

/-- the example object yields a result with 'yoy_degradation' -/
example : ((analysis exEnv .sensor ["yoy_degradation"] "" "" exTA).2.sensor.results) = some ⟨some 2, none⟩ := by
  decide +kernel

/-- **C55 (negation: usable data).** Rows without a value count for the two years: one single usable value
passes the check. -/
theorem C55_usable_refuted :
    ∃ x : Series, filterCheck x = .ok () ∧ (x.filter fun r => r.2.isSome).length = 1 :=
  ⟨[(0, some 1), (730 * dayNs, none)], by decide +kernel⟩

/-- **C55 (negation: soiling analyses).** A soiling analysis runs on any span. -/
theorem C55_srr_unchecked :
    let s : TA Unit Nat Nat := { exTA with pvEnergy := [(0, some 1)] }
    (analysis exEnv .sensor ["srr_soiling"] "" "" s).1 = .ok () ∧
    (analysis exEnv .sensor ["srr_soiling"] "" "" s).2.sensor.performance = some [(0, some 1)] := by
  decide +kernel

/-! ## C56 -/

/-- **C56 (the other analysis).** An analysis, successful or not, leaves everything stored for the other case. -/
theorem C56_other_untouched (env : Env Loc ρ σ) {c c' : Case} (hc : c' ≠ c) (s : TA Loc ρ σ) (analyses : List String)
    (yoyKw srrKw : String) : (analysis env c analyses yoyKw srrKw s).2.out c' = s.out c' := by
  have hmod : ∀ (u : TA Loc ρ σ) f, (u.modifyOut c f).out c' = u.out c' := by
    intro u f; cases c <;> cases c' <;> first | rfl | exact absurd rfl hc
  have H : Stable env c fun u => u.out c' = s.out c' := by
    constructor
    · intro u d hu _ _; rw [← hu]; cases c' <;> rfl
    · intro u d hu _ _; rw [← hu]; cases c' <;> rfl
    · intro u f hu _; rw [hmod]; exact hu
    · intro u p loc v hu _ _ _ _ _; rw [← hu]; cases c' <;> rfl
    · intro u _ _ v hu _ _ _ _ _ _; rw [← hu]; cases c' <;> rfl
    · intro u _ _ v hu _ _ _ _ _; rw [← hu]; cases c' <;> rfl
    · intro u _ _ v hu _ _ _ _ _; rw [← hu]; cases c' <;> rfl
  rcases analysis_keeps H rfl analyses yoyKw srrKw with ⟨e, u, hu, he⟩ | ⟨u, perf, insol, y, z, hu, -, -, -, -, -, he⟩
  · rw [he]; exact hu
  · rw [he]; simp only [hmod]; exact hu

/-- **C56 (failing calls).** A failing analysis leaves the stored result of its own case. -/
theorem C56_failure_keeps_results {env : Env Loc ρ σ} {c : Case} {s s' : TA Loc ρ σ} {analyses : List String}
    {yoyKw srrKw : String} {e : PyErr} (h : analysis env c analyses yoyKw srrKw s = (.error e, s')) :
    (s'.out c).results = (s.out c).results := by
  have H : Stable env c fun u => (u.out c).results = (s.out c).results := by
    constructor
    · intro u d hu _ _; rw [← hu]; cases c <;> rfl
    · intro u d hu _ _; rw [← hu]; cases c <;> rfl
    · intro u f hu hf; rw [out_modifyOut, hf]; exact hu
    · intro u p loc v hu _ _ _ _ _; rw [← hu]; cases c <;> rfl
    · intro u _ _ v hu _ _ _ _ _ _; rw [← hu]; cases c <;> rfl
    · intro u _ _ v hu _ _ _ _ _; rw [← hu]; cases c <;> rfl
    · intro u _ _ v hu _ _ _ _ _; rw [← hu]; cases c <;> rfl
  rcases analysis_keeps H rfl analyses yoyKw srrKw with ⟨e, u, hu, he⟩ | ⟨u, perf, insol, y, z, hu, -, -, -, -, -, he⟩
  · rw [h] at he; cases he; exact hu
  · rw [h] at he; cases he

/-- **C56 (requested analyses).** A successful analysis stores a result whose entries are exactly the requested
analyses, computed from the stored aggregated series. -/
theorem C56_requested {env : Env Loc ρ σ} {c : Case} {s s' : TA Loc ρ σ} {analyses : List String}
    {yoyKw srrKw : String} (h : analysis env c analyses yoyKw srrKw s = (.ok (), s')) :
    ∃ r perf insol, (s'.out c).results = some r ∧ (s'.out c).performance = some perf ∧
      (s'.out c).insolation = some insol ∧
      (r.yoy.isSome ↔ "yoy_degradation" ∈ analyses) ∧ (r.srr.isSome ↔ "srr_soiling" ∈ analyses) ∧
      (∀ y, r.yoy = some y → env.yoy yoyKw perf = .ok y) ∧
      (∀ z, r.srr = some z → env.srr srrKw perf insol = .ok z ∧ s'.aggDaily = true) := by
  have H : Stable env c fun _ => True := by constructor <;> intros <;> trivial
  rcases analysis_keeps H (s := s) trivial analyses yoyKw srrKw with ⟨e, u, -, he⟩ | ⟨u, perf, insol, y, z, -, -, hp, hi, hyy, hzz, he⟩
  · rw [h] at he; cases he
  · rw [h, Prod.mk.injEq] at he
    refine ⟨⟨y, z⟩, perf, insol, by rw [he.2, out_modifyOut], by rw [he.2, out_modifyOut]; exact hp,
      by rw [he.2, out_modifyOut]; exact hi, ?_⟩
    unfold requested at hyy hzz
    refine ⟨?_, ?_, ?_, ?_⟩
    · split_ifs at hyy with hm
      · rw [call_run, Prod.mk.injEq] at hyy
        cases hv : yoyDegradation env yoyKw perf with
        | error e => rw [hv] at hyy; cases hyy.1
        | ok v => rw [hv] at hyy; cases hyy.1; simp [hm]
      · cases hyy; simp [hm]
    · split_ifs at hzz with hm
      · rw [call_run, Prod.mk.injEq] at hzz
        cases hv : srrSoiling env u.aggDaily srrKw perf insol with
        | error e => rw [hv] at hzz; cases hzz.1
        | ok v => rw [hv] at hzz; cases hzz.1; simp [hm]
      · cases hzz; simp [hm]
    · intro y' hy'
      simp only at hy'
      subst hy'
      split_ifs at hyy with hm
      · rw [call_run, Prod.mk.injEq] at hyy
        unfold yoyDegradation at hyy
        cases hf : filterCheck perf with
        | error e => rw [hf] at hyy; cases hyy.1
        | ok a =>
          rw [hf] at hyy
          simp only at hyy
          cases hv : env.yoy yoyKw perf with
          | error e => rw [hv] at hyy; cases hyy.1
          | ok v => rw [hv] at hyy; cases hyy.1; rfl
      · cases hyy
    · intro z' hz'
      simp only at hz'
      subst hz'
      have hd : s'.aggDaily = u.aggDaily := by rw [he.2]; cases c <;> rfl
      rw [hd]
      split_ifs at hzz with hm
      · rw [call_run, Prod.mk.injEq] at hzz
        unfold srrSoiling at hzz
        cases hf : u.aggDaily with
        | false => rw [hf] at hzz; cases hzz.1
        | true =>
          rw [hf, if_pos rfl] at hzz
          cases hv : env.srr srrKw perf insol with
          | error e => rw [hv] at hzz; cases hzz.1
          | ok v => rw [hv] at hzz; cases hzz.1; exact ⟨rfl, rfl⟩
      · cases hzz

/-- the public operations on an object -/
inductive Call (Loc : Type) where
  | analysis (c : Case) (analyses : List String) (yoyKw srrKw : String)
  | setClearsky (loc : Option Loc) (poaCs tcellCs tambCs : Option Series)
  | setFilterParams (d : Option (List (String × FVal)))
  | setFilterParamsAggregated (d : Option (List (String × FVal)))
  | editFilterParams (op : FilterDict.Op FVal)
  | editFilterParamsAggregated (op : FilterDict.Op FVal)

/-- one call -/
def Call.run (env : Env Loc ρ σ) : Call Loc → M Loc ρ σ Unit
  | .analysis c a k l => Chains.analysis env c a k l
  | .setClearsky a b c d => Chains.setClearsky env a b c d
  | .setFilterParams d => Chains.setFilterParams d
  | .setFilterParamsAggregated d => Chains.setFilterParamsAggregated d
  | .editFilterParams op => Chains.editFilterParams op
  | .editFilterParamsAggregated op => Chains.editFilterParamsAggregated op

/-- a history of calls; exceptions are caught by the user -/
def runAll (env : Env Loc ρ σ) (s : TA Loc ρ σ) (calls : List (Call Loc)) : TA Loc ρ σ :=
  calls.foldl (fun s k => (k.run env s).2) s

/-- is the call a successful analysis of case `c` when run on `s`? -/
def Spec.Completes (env : Env Loc ρ σ) (c : Case) (s : TA Loc ρ σ) (k : Call Loc) : Prop :=
  (∃ a y z, k = .analysis c a y z) ∧ (k.run env s).1 = .ok ()

/-- a call other than a successful analysis of case `c` leaves the result of case `c` -/
theorem call_keeps_results {env : Env Loc ρ σ} {c : Case} {s : TA Loc ρ σ} {k : Call Loc}
    (h : ¬ Spec.Completes env c s k) : ((k.run env s).2.out c).results = (s.out c).results := by
  cases k with
  | analysis c' a y z =>
    by_cases hc : c = c'
    · subst hc
      cases hr : analysis env c a y z s with
      | mk r u =>
        show ((analysis env c a y z s).2.out c).results = _
        rw [hr]
        cases r with
        | error e => exact C56_failure_keeps_results hr
        | ok v => exact absurd ⟨⟨a, y, z, rfl⟩, by show (analysis env c a y z s).1 = _; rw [hr]⟩ h
    · exact congrArg Out.results (C56_other_untouched env hc s a y z)
  | setClearsky a b c' d =>
    show ((Chains.setClearsky env a b c' d s).2.out c).results = _
    unfold Chains.setClearsky
    cases interpOpt env b with
    | error e => rfl
    | ok b' =>
      cases interpOpt env c' with
      | error e => rfl
      | ok c'' =>
        cases interpOpt env d with
        | error e => rfl
        | ok d' => cases c <;> rfl
  | setFilterParams d =>
    show ((Chains.setFilterParams d s).2.out c).results = _
    unfold Chains.setFilterParams
    cases d with
    | none => rfl
    | some d =>
      rw [bind_run_ok (self_run s), bind_run_ok (show (required (some d) : M Loc ρ σ _) s = (.ok d, s) from rfl)]
      cases FilterDict.construct s.params.valid d with
      | error e => rfl
      | ok d' => cases c <;> rfl
  | setFilterParamsAggregated d =>
    show ((Chains.setFilterParamsAggregated d s).2.out c).results = _
    unfold Chains.setFilterParamsAggregated
    cases d with
    | none => rfl
    | some d =>
      rw [bind_run_ok (self_run s), bind_run_ok (show (required (some d) : M Loc ρ σ _) s = (.ok d, s) from rfl)]
      cases FilterDict.construct s.paramsAgg.valid d with
      | error e => rfl
      | ok d' => cases c <;> rfl
  | editFilterParams op => cases c <;> rfl
  | editFilterParamsAggregated op => cases c <;> rfl

/-- **C56 (histories).** After any history of calls on a new object, a result is stored for a case exactly if
an analysis of that case completed, and it is the one stored by the last such call. -/
theorem C56_history (env : Env Loc ρ σ) (c : Case) (s : TA Loc ρ σ) (calls : List (Call Loc)) :
    (∃ pre k post, calls = pre ++ k :: post ∧ Spec.Completes env c (runAll env s pre) k ∧
      (∀ p' k' q', post = p' ++ k' :: q' → ¬ Spec.Completes env c (runAll env s (pre ++ k :: p')) k') ∧
      (((runAll env s calls).out c).results = (((k.run env (runAll env s pre)).2).out c).results)) ∨
    ((∀ pre k post, calls = pre ++ k :: post → ¬ Spec.Completes env c (runAll env s pre) k) ∧
      ((runAll env s calls).out c).results = (s.out c).results) := by
  induction calls using List.reverseRecOn with
  | nil => exact .inr ⟨by intro pre k post h; simp at h, rfl⟩
  | append_singleton l k ih =>
    have hrun : runAll env s (l ++ [k]) = (k.run env (runAll env s l)).2 := by
      unfold runAll; rw [List.foldl_append]; rfl
    by_cases hk : Spec.Completes env c (runAll env s l) k
    · exact .inl ⟨l, k, [], rfl, hk, by intro p' k' q' h; simp at h, by rw [hrun]⟩
    · have hkeep := call_keeps_results hk
      rcases ih with ⟨pre, k0, post, rfl, h0, h1, h2⟩ | ⟨h1, h2⟩
      · refine .inl ⟨pre, k0, post ++ [k], by simp, h0, ?_, by rw [hrun, hkeep, h2]⟩
        intro p' k' q' hp
        rcases List.eq_nil_or_concat q' with rfl | ⟨q, b, rfl⟩
        · have := List.append_inj' hp rfl
          obtain ⟨rfl, h⟩ := this
          cases h
          exact hk
        · have h3 : post ++ [k] = (p' ++ k' :: q) ++ [b] := by rw [hp]; simp
          have := List.append_inj' h3 rfl
          exact h1 p' k' q this.1
      · refine .inr ⟨?_, by rw [hrun, hkeep, h2]⟩
        intro pre k' post hp
        rcases List.eq_nil_or_concat post with rfl | ⟨q, b, rfl⟩
        · have := List.append_inj' hp rfl
          obtain ⟨rfl, h⟩ := this
          cases h
          exact hk
        · have h3 : l ++ [k] = (pre ++ k' :: q) ++ [b] := by rw [hp]; simp
          have := List.append_inj' h3 rfl
          exact h1 pre k' q this.1

/-- the states reachable by analyses of the other case are indistinguishable -/
theorem agree_stable (env : Env Loc ρ σ) {c c' : Case} (hc : c' ≠ c) (s : TA Loc ρ σ) :
    Stable env c (Agree env c' s) := by
  have hmod : ∀ (u : TA Loc ρ σ) f, (u.modifyOut c f).out c' = u.out c' := by
    intro u f; cases c <;> cases c' <;> first | rfl | exact absurd rfl hc
  constructor
  · rintro u d ⟨a1, a2, a3, a4, a5, a6, a7, a8, a9, a10, a11, a12, a13⟩ h _
    exact ⟨a1, a2, a3, a4, a5, a6.trans h, a7, a8, a9, a10, a11, a12, by cases c' <;> exact a13⟩
  · rintro u d ⟨a1, a2, a3, a4, a5, a6, a7, a8, a9, a10, a11, a12, a13⟩ h _
    exact ⟨a1, a2, a3, a4, a5, a6, a7.trans h, a8, a9, a10, a11, a12, by cases c' <;> exact a13⟩
  · rintro u f h _
    have ho : s.out c' = (u.modifyOut c f).out c' := by rw [hmod]; exact h.out
    obtain ⟨a1, a2, a3, a4, a5, a6, a7, a8, a9, a10, a11, a12, a13⟩ := h
    cases c <;> exact ⟨a1, a2, a3, a4, a5, a6, a7, a8, a9, a10, a11, a12, ho⟩
  · rintro u p loc v ⟨a1, a2, a3, a4, a5, a6, a7, a8, a9, a10, a11, a12, a13⟩ h1 h2 h3 h4 h5
    refine ⟨a1, a2, a3, a4, a5, a6, a7, a8, a9, ?_, a11, a12, by cases c' <;> exact a13⟩
    rcases a10 with e | ⟨-, _, _, w, -, -, -, -, e⟩
    · exact .inr ⟨by rw [e, h1], p, loc, v, by rw [a3, h2], by rw [a8, h3], by rw [a9, h4], h5, rfl⟩
    · rw [h1] at e; cases e
  · rintro u _ _ v ⟨a1, a2, a3, a4, a5, a6, a7, a8, a9, a10, a11, a12, a13⟩ rfl _ _ _ _ _
    exact ⟨a1, a2, a3, a4, a5, a6, a7, a8, a9, a10, fun e => absurd e hc, a12, by cases c' <;> exact a13⟩
  · rintro u _ _ v ⟨a1, a2, a3, a4, a5, a6, a7, a8, a9, a10, a11, a12, a13⟩ rfl _ _ _ _
    exact ⟨a1, a2, a3, a4, a5, a6, a7, a8, a9, a10, a11, fun e => absurd e hc, by cases c' <;> exact a13⟩
  · rintro u _ _ v ⟨a1, a2, a3, a4, a5, a6, a7, a8, a9, a10, a11, a12, a13⟩ rfl _ _ _ _
    exact ⟨a1, a2, a3, a4, a5, a6, a7, a8, a9, a10, a11, fun e => absurd e hc, by cases c' <;> exact a13⟩

theorem agree_after (env : Env Loc ρ σ) {c c' : Case} (hc : c' ≠ c) (s : TA Loc ρ σ) (analyses : List String)
    (yoyKw srrKw : String) {u : TA Loc ρ σ} (hu : Agree env c' s u) :
    Agree env c' s (analysis env c analyses yoyKw srrKw u).2 := by
  have H := agree_stable env hc s
  have hmod : ∀ (w : TA Loc ρ σ) f, (w.modifyOut c f).out c' = w.out c' := by
    intro w f; cases c <;> cases c' <;> first | rfl | exact absurd rfl hc
  rcases analysis_keeps H hu analyses yoyKw srrKw with ⟨e, w, hw, he⟩ | ⟨w, perf, insol, y, z, hw, -, -, -, -, -, he⟩
  · rw [he]; exact hw
  · rw [he]
    have ho : ∀ f, s.out c' = (w.modifyOut c f).out c' := by intro f; rw [hmod]; exact hw.out
    obtain ⟨a1, a2, a3, a4, a5, a6, a7, a8, a9, a10, a11, a12, a13⟩ := hw
    simp only
    cases c <;> exact ⟨a1, a2, a3, a4, a5, a6, a7, a8, a9, a10, a11, a12, ho _⟩

/-- **C56 (independence).** Running analyses of the other case before, any number of them, successful or not,
changes nothing about an analysis: the same outcome and the same stored filters, aggregated series and results. -/
theorem C56_independent (env : Env Loc ρ σ) {c c' : Case} (hc : c' ≠ c) (s : TA Loc ρ σ)
    (others : List (List String × String × String)) (analyses : List String) (yoyKw srrKw : String) :
    let u := runAll env s (others.map fun o => .analysis c o.1 o.2.1 o.2.2)
    (analysis env c' analyses yoyKw srrKw u).1 = (analysis env c' analyses yoyKw srrKw s).1 ∧
    (analysis env c' analyses yoyKw srrKw u).2.out c' = (analysis env c' analyses yoyKw srrKw s).2.out c' := by
  have hA : ∀ (l : List (List String × String × String)) (w : TA Loc ρ σ), Agree env c' s w →
      Agree env c' s (runAll env w (l.map fun o => .analysis c o.1 o.2.1 o.2.2)) := by
    intro l
    induction l with
    | nil => intro w hw; exact hw
    | cons o l ih => intro w hw; exact ih _ (agree_after env hc s o.1 o.2.1 o.2.2 hw)
  have h := analysis_rel (hA others s (Agree.refl env c' s)) analyses yoyKw srrKw
  exact ⟨h.1.symm, h.2.out.symm⟩

/-- **C56 (unknown names).** Names other than the two known analyses are ignored, without any error. -/
theorem C56_unknown_names (env : Env Loc ρ σ) (c : Case) (s : TA Loc ρ σ) (extra : List String) (analyses : List String)
    (yoyKw srrKw : String) (h : ∀ n ∈ extra, n ≠ "yoy_degradation" ∧ n ≠ "srr_soiling") :
    analysis env c (extra ++ analyses) yoyKw srrKw s = analysis env c analyses yoyKw srrKw s := by
  have e : ∀ {α : Type} (name : String) (v : Except PyErr α), (name = "yoy_degradation" ∨ name = "srr_soiling") →
      (requested (extra ++ analyses) name v : M Loc ρ σ _) = requested analyses name v := by
    intro α name v hn
    unfold requested
    have : name ∈ extra ++ analyses ↔ name ∈ analyses := by
      rw [List.mem_append]
      refine ⟨fun h' => h'.resolve_left fun hx => ?_, .inr⟩
      rcases hn with rfl | rfl
      · exact (h _ hx).1 rfl
      · exact (h _ hx).2 rfl
    simp only [this]
  unfold analysis
  simp only [e _ _ (.inl rfl), e _ _ (.inr rfl)]

/-- sensor and clear-sky analysis on the example object, in both orders -/
example : let s : TA Unit Nat Nat := { exTA with location := some (some ()), tilt := true, poaCs := some none,
                                                 tcellCs := some none, tambCs := some none }
    let a := runAll exEnv s [.analysis .sensor ["yoy_degradation"] "" "", .analysis .clearsky ["srr_soiling"] "" ""]
    let b := runAll exEnv s [.analysis .clearsky ["srr_soiling"] "" "", .analysis .sensor ["yoy_degradation"] "" ""]
    a.sensor.results = some ⟨some 2, none⟩ ∧ a.clearsky.results = some ⟨none, some 2⟩ ∧
    b.sensor.results = a.sensor.results ∧ b.clearsky.results = a.clearsky.results := by decide +kernel

/-! ## C57 -/

/-- **C57 (accepted cases).** The plot methods raise ValueError exactly for a case other than 'sensor' and
'clearsky', whatever is stored. -/
theorem C57_case (s : TA Loc ρ σ) (case : String) :
    (plotDegradation s case = .error .valueError ↔ case ≠ "sensor" ∧ case ≠ "clearsky") ∧
    (plotTimeseries s case = .error .valueError ↔ case ≠ "sensor" ∧ case ≠ "clearsky") ∧
    (plotSoiling s case = .error .valueError ↔ case ≠ "sensor" ∧ case ≠ "clearsky") ∧
    (plotIrradiance s case = .error .valueError ↔ case ≠ "sensor" ∧ case ≠ "clearsky") := by
  have hk : ∀ {β : Type} (f : Case → Except PyErr β), (∀ c, f c ≠ .error .valueError) →
      ((caseOf case >>= f) = .error .valueError ↔ case ≠ "sensor" ∧ case ≠ "clearsky") := by
    intro β f hf
    unfold caseOf
    split_ifs with h1 h2
    · exact ⟨fun h => absurd h (hf _), fun h => absurd h1 h.1⟩
    · exact ⟨fun h => absurd h (hf _), fun h => absurd h2 h.2⟩
    · exact ⟨fun _ => ⟨h1, h2⟩, fun _ => rfl⟩
  have nb : ∀ {β γ : Type} {e : Except PyErr β} {f : β → Except PyErr γ}, e ≠ .error .valueError →
      (∀ a, f a ≠ .error .valueError) → (e >>= f) ≠ .error .valueError := by
    intro β γ e f he hf
    cases e with
    | ok a => exact hf a
    | error x => intro h; apply he; cases h; rfl
  have hr : ∀ c, resultsOf s c ≠ .error .valueError := by
    intro c; unfold resultsOf; cases (s.out c).results <;> simp
  have hy : ∀ r : Results ρ σ, yoyOf r ≠ .error .valueError := by
    intro r; unfold yoyOf; cases r.yoy <;> simp
  have hz : ∀ r : Results ρ σ, srrOf r ≠ .error .valueError := by
    intro r; unfold srrOf; cases r.srr <;> simp
  have ha : ∀ {β : Type} (o : Option β), attrOf o ≠ .error .valueError := by
    intro β o; unfold attrOf; cases o <;> simp
  refine ⟨hk _ fun c => nb (hr c) fun r => nb (hy r) fun y => nb (ha _) fun p h => (by cases h),
    hk _ fun c => nb (hr c) hy, hk _ fun c => nb (hr c) hz, hk _ fun c => ?_⟩
  cases c with
  | sensor => intro h; cases h
  | clearsky => exact ha _

/-- name of a case -/
def Spec.caseName : Case → String
  | .sensor => "sensor"
  | .clearsky => "clearsky"

/-- **C57 (which analysis).** For the name of a case the degradation and soiling plots show exactly what is stored
for that case; without a completed analysis of the case, or without the plotted kind of result, they raise
KeyError. -/
theorem C57_selects (s : TA Loc ρ σ) (c : Case) :
    plotTimeseries s (Spec.caseName c) =
      (match (s.out c).results.bind Results.yoy with | some y => .ok y | none => .error .keyError) ∧
    plotSoiling s (Spec.caseName c) =
      (match (s.out c).results.bind Results.srr with | some y => .ok y | none => .error .keyError) := by
  have hc : caseOf (Spec.caseName c) = .ok c := by cases c <;> rfl
  unfold plotTimeseries plotSoiling
  rw [hc]
  constructor
  · show (resultsOf s c >>= yoyOf) = _
    unfold resultsOf yoyOf
    cases (s.out c).results <;> rfl
  · show (resultsOf s c >>= srrOf) = _
    unfold resultsOf srrOf
    cases (s.out c).results <;> rfl

/-- **C57 (after an analysis).** Right after a successful analysis the degradation summary shows the result and the
aggregated series of that analysis. -/
theorem C57_after_analysis {env : Env Loc ρ σ} {c : Case} {s s' : TA Loc ρ σ} {analyses : List String}
    {yoyKw srrKw : String} (h : analysis env c analyses yoyKw srrKw s = (.ok (), s'))
    (hy : "yoy_degradation" ∈ analyses) :
    ∃ y perf, plotDegradation s' (Spec.caseName c) = .ok (y, perf) ∧ env.yoy yoyKw perf = .ok y := by
  obtain ⟨r, perf, insol, h1, h2, -, h4, -, h6, -⟩ := C56_requested h
  have hs := h4.mpr hy
  obtain ⟨y, hy'⟩ := Option.isSome_iff_exists.mp hs
  refine ⟨y, perf, ?_, h6 y hy'⟩
  have hc : caseOf (Spec.caseName c) = .ok c := by cases c <;> rfl
  have e1 : resultsOf s' c = .ok r := by unfold resultsOf; rw [h1]
  have e2 : yoyOf r = .ok y := by unfold yoyOf; rw [hy']
  have e3 : attrOf (s'.out c).performance = .ok perf := by rw [h2]; rfl
  unfold plotDegradation
  rw [hc]
  show (resultsOf s' c >>= fun r => yoyOf r >>= fun y => attrOf (s'.out c).performance >>= fun p => pure (y, p)) = _
  rw [e1]
  show (yoyOf r >>= fun y => attrOf (s'.out c).performance >>= fun p => pure (y, p)) = _
  rw [e2, e3]
  rfl

/-- **C57 (negation: stale results).** After a failed second analysis the degradation summary combines the stored
result of the first analysis with the aggregated series of the failed one. -/
theorem C57_stale_refuted :
    let s := (analysis exEnv .sensor ["yoy_degradation"] "" "" exTA).2
    let u := (analysis exEnv .sensor ["yoy_degradation"] "" "" { s with pvEnergy := [(0, some 1)] }).2
    (plotDegradation s "sensor").toOption.map (fun r => (r.1, r.2.length)) = some (2, 2) ∧
    (plotDegradation u "sensor").toOption.map (fun r => (r.1, r.2.length)) = some (2, 1) ∧
    (analysis exEnv .sensor ["yoy_degradation"] "" "" { s with pvEnergy := [(0, some 1)] }).1 = .error .valueError := by
  decide +kernel

end Verif.Chains
