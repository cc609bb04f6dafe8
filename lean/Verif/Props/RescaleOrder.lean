import Verif.Props.Rescale

/-! # Property C152 (what the factor of `irradiance_rescale` depends on) -/

namespace Verif

namespace Spec

/-- the rows with both irradiances -/
def complete (rows : List (Cell × Cell)) : List (ℚ × ℚ) := rows.filterMap fun r => r.1.bind fun a => r.2.map fun b => (a, b)

/-- both calls fail with the same error, or both multiply their modelled irradiance by the same number -/
def SameFactor (rows rows' : List (Cell × Cell)) (x x' : Except PyErr (List Flt)) : Prop :=
  (∃ e, x = .error e ∧ x' = .error e) ∨
    ∃ F : Flt, x = .ok (rows.map fun r => timesCell F r.2) ∧ x' = .ok (rows'.map fun r => timesCell F r.2)

end Spec

open Spec

theorem percentileE_perm {l l' : List ℚ} (h : l.Perm l') (p : ℚ) : percentileE l p = percentileE l' p := by
  have hs : sortQ l = sortQ l' := by
    have := quantile_perm h
    unfold sortQ
    exact List.Perm.eq_of_pairwise (le := fun a b : ℚ => a ≤ b) (fun a b _ _ => le_antisymm) (List.pairwise_insertionSort _ _)
      (List.pairwise_insertionSort _ _)
      ((List.perm_insertionSort _ _).trans (h.trans (List.perm_insertionSort _ _).symm))
  unfold percentileE
  rw [hs]
  cases l with
  | nil => rw [List.nil_perm.mp h]
  | cons a l =>
    cases l' with
    | nil => exact absurd h.symm (by simp)
    | cons b l' => rfl

/-- a filter that selects complete rows only -/
theorem filter_complete {p : Cell × Cell → Bool} (hp : ∀ r, p r = true → ∃ a b, r = (some a, some b)) (rows : List (Cell × Cell)) :
    rows.filter p = ((complete rows).map fun q => ((some q.1, some q.2) : Cell × Cell)).filter p := by
  induction rows with
  | nil => rfl
  | cons r l ih =>
    obtain ⟨a, b⟩ := r
    cases a with
    | none =>
      have : p (none, b) = false := by
        by_contra h
        obtain ⟨x, y, e⟩ := hp _ (by simpa using h)
        cases e
      rw [List.filter_cons, this]
      simpa [complete] using ih
    | some a =>
      cases b with
      | none =>
        have : p (some a, none) = false := by
          by_contra h
          obtain ⟨x, y, e⟩ := hp _ (by simpa using h)
          cases e
        rw [List.filter_cons, this]
        simpa [complete] using ih
      | some b =>
        have e : complete ((some a, some b) :: l) = (a, b) :: complete l := rfl
        rw [e, List.map_cons, List.filter_cons, List.filter_cons, ih]

theorem meanSquare_perm {l l' : List (Cell × Cell)} (h : l.Perm l') (x : ℚ) : meanSquare x l = meanSquare x l' := by
  unfold meanSquare
  have hv : (valids (l.map fun r => (cellOp (fun a b => a - b) (r.2.map (x * ·)) r.1).map fun d => d ^ 2)).Perm
      (valids (l'.map fun r => (cellOp (fun a b => a - b) (r.2.map (x * ·)) r.1).map fun d => d ^ 2)) := by
    unfold valids
    exact (h.map _).filterMap _
  generalize valids (l.map fun r => (cellOp (fun a b => a - b) (r.2.map (x * ·)) r.1).map fun d => d ^ 2) = v at hv
  generalize valids (l'.map fun r => (cellOp (fun a b => a - b) (r.2.map (x * ·)) r.1).map fun d => d ^ 2) = v' at hv
  cases v with
  | nil => rw [List.nil_perm.mp hv]
  | cons a v =>
    cases v' with
    | nil => exact absurd hv.symm (by simp)
    | cons b v' =>
      unfold mean
      simp only
      rw [hv.sum_eq, hv.length_eq]

theorem clearFilter_complete {f : Flt} {r : Cell × Cell} (h : clearFilter f r = true) : ∃ a b, r = (some a, some b) := by
  cases f with
  | fin g =>
    unfold clearFilter at h
    simp only [Bool.and_eq_true] at h
    obtain ⟨a, b, e, -⟩ := csiNear_nonzero h.1
    exact ⟨a, b, e⟩
  | nan => cases h
  | pinf => cases h
  | ninf => cases h

/-- **C152.** The factor found by `irradiance_rescale` depends on the measured values, the modelled values
and the pairs of both, in any order: two records that agree in these get the same factor or the same
error. In particular, neither the order of the rows nor rows without values matter. -/
theorem C152_factor {minimize : (ℚ → Cell) → Flt → Flt} {rows rows' : List (Cell × Cell)}
    (h1 : (rows.filterMap Prod.fst).Perm (rows'.filterMap Prod.fst))
    (h2 : (rows.filterMap Prod.snd).Perm (rows'.filterMap Prod.snd))
    (h3 : (complete rows).Perm (complete rows')) (method : RescaleMethod) (n : Int) (thr : ℚ) :
    SameFactor rows rows' (irradianceRescaleSeries minimize method rows n thr)
      (irradianceRescaleSeries minimize method rows' n thr) := by
  have hval : ∀ (l : List (Cell × Cell)), valids (l.map Prod.fst) = l.filterMap Prod.fst ∧
      valids (l.map Prod.snd) = l.filterMap Prod.snd := by
    intro l
    unfold valids
    rw [List.filterMap_map, List.filterMap_map]
    exact ⟨rfl, rfl⟩
  have hg : rescaleGuess rows' = rescaleGuess rows := by
    unfold rescaleGuess
    rw [(hval rows').1, (hval rows').2, (hval rows).1, (hval rows).2, percentileE_perm h1, percentileE_perm h2]
  have hms : ∀ (p : Cell × Cell → Bool), (∀ r, p r = true → ∃ a b, r = (some a, some b)) → ∀ x,
      meanSquare x (rows'.filter p) = meanSquare x (rows.filter p) := by
    intro p hp x
    rw [filter_complete hp rows, filter_complete hp rows']
    exact meanSquare_perm ((h3.symm.map _).filter _) x
  have hs : singleRescale minimize rows' = singleRescale minimize rows := by
    funext g
    unfold singleRescale
    congr 1
    funext x
    exact hms _ (fun r hr => clearFilter_complete hr) x
  have ho : singleOpt minimize rows' = singleOpt minimize rows := by
    funext g
    unfold singleOpt
    congr 1
    funext x
    refine hms _ (fun r hr => ?_) x
    obtain ⟨a, b, e, -⟩ := csiNear_nonzero hr
    exact ⟨a, b, e⟩
  cases method with
  | other => exact .inl ⟨.valueError, rfl, rfl⟩
  | iterative =>
    unfold irradianceRescaleSeries
    simp only
    rw [hg, hs]
    generalize rescaleGuess rows = G
    cases G with
    | error e => exact .inl ⟨e, rfl, rfl⟩
    | ok g =>
      simp only [Except.bind]
      generalize irradianceRescale .iterative g (singleRescale minimize rows) n thr = R
      cases R with
      | error e => exact .inl ⟨e, rfl, rfl⟩
      | ok r => exact .inr ⟨r.factor, rfl, rfl⟩
  | singleOpt =>
    unfold irradianceRescaleSeries
    simp only
    rw [hg, ho]
    generalize rescaleGuess rows = G
    cases G with
    | error e => exact .inl ⟨e, rfl, rfl⟩
    | ok g =>
      simp only [Except.bind]
      generalize irradianceRescale .singleOpt g (singleOpt minimize rows) n thr = R
      cases R with
      | error e => exact .inl ⟨e, rfl, rfl⟩
      | ok r => exact .inr ⟨r.factor, rfl, rfl⟩

/-- the rows in another order and with empty rows -/
example : let a : List (Cell × Cell) := [(some 500, some 450), (some 300, none), (some 800, some 790)]
    let b : List (Cell × Cell) := [(none, none), (some 800, some 790), (some 500, some 450), (some 300, none)]
    (a.filterMap Prod.fst).Perm (b.filterMap Prod.fst) ∧ (a.filterMap Prod.snd).Perm (b.filterMap Prod.snd) ∧
      (complete a).Perm (complete b) ∧
      (irradianceRescaleSeries (fun _ g => g) .iterative a 10 (1/1000)).toOption.isSome = true := by
  decide +kernel

end Verif
