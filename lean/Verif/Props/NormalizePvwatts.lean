import Verif.Props.Normalize

/-! # Property C11 for the PVWatts model itself -/

namespace Verif
open Spec

/-- with the period of the record given explicitly -/
theorem energy_explicit_period {t0 f : Int} (n : Nat) (c : Nat → Cell) :
    energyFromPower (regular t0 f (n + 3) c) (some f) none .rightLabeled none =
      energyFromPower (regular t0 f (n + 3) c) none none .rightLabeled none := by
  unfold energyFromPower
  have hlen : ¬ (regular t0 f (n + 3) c).length ≤ 1 := by simp [regular]
  have hmed : median (valids ((tStepNs ((regular t0 f (n + 3) c).map Prod.fst)).map Prod.snd)) =
      some (f : ℚ) := by
    unfold tStepNs
    rw [valids_gaps_list]
    have := indexSteps_regular t0 f (n + 2) c
    unfold indexSteps at this
    rw [this]
    exact median_replicate (n + 1) f
  rw [if_neg hlen, if_neg hlen]
  dsimp only
  rw [hmed]
  dsimp only [Option.getD]
  rw [Int.floor_intCast]

/-- **C11 (exactness for PVWatts).** Weather on a regular grid with any pattern of missing values, any nameplate, reference
conditions, temperature coefficient, with or without temperature. A system that delivers `q > 0` times the energy of the
PVWatts power of that weather has normalized energy exactly `q` at the end of every interval in which the model has power at
both ends and not zero at the end, and a missing one where the modelled power at the end is zero; every other entry of the
result is missing. -/
theorem C11_pvwatts_exact {t0 f : Int} (hf : 0 < f) (n : Nat) (g T : Nat → Cell) (rated poaRef tRef : ℚ) (useT : Bool)
    (gamma : Option ℚ) {q : ℚ} (hq : 0 < q) {c : Nat → Cell}
    (hc : ∀ k, c k = pvwattsDcPower (g k) rated (if useT then some (T k) else none) poaRef tRef gamma)
    (hv : ∃ k, k < n + 3 ∧ c k ≠ none) {E : Series}
    (hE : energyFromPower (regular t0 f (n + 3) c) (some f) none .rightLabeled none = .ok E) :
    ∃ N I, normalizeWithPvwatts (scaleS q E) ((List.range (n + 3)).map fun k : Nat => (t0 + (k : Int) * f, g k, T k))
        rated poaRef tRef useT gamma (some f) = .ok (N, I) ∧
      (∀ k, k < n + 2 → ∀ x, c (k + 1) = some x → c k ≠ none →
        (t0 + ((k : Int) + 1) * f, if x = 0 then Flt.nan else .fin q) ∈ N) ∧
      ∀ t v, (t, v) ∈ N → v = .nan ∨ v = .fin q := by
  have hexp : pvwattsSeries ((List.range (n + 3)).map fun k : Nat => (t0 + (k : Int) * f, g k, T k)) rated poaRef tRef useT
      gamma = regular t0 f (n + 3) c := by
    unfold pvwattsSeries regular
    rw [List.map_map]
    apply List.map_congr_left
    intro k _
    simp only [Function.comp_apply, hc]
  have hpoa : ((List.range (n + 3)).map fun k : Nat => (t0 + (k : Int) * f, g k, T k)).map (fun r => (r.1, r.2.1)) =
      regular t0 f (n + 3) g := by
    unfold regular; rw [List.map_map]; rfl
  have hgv : ∃ k, k < n + 3 ∧ g k ≠ none := by
    obtain ⟨k, hk, hck⟩ := hv
    refine ⟨k, hk, fun h => hck ?_⟩
    rw [hc, h]
    unfold pvwattsDcPower
    cases useT <;> cases gamma <;> simp [cellOp]
  obtain ⟨N, I, hN, hval⟩ := C11_exact (t0 := t0) hf n c g hv hgv
  have hEr := hE
  rw [energy_explicit_period, energy_regular hf (n + 1) c hv] at hEr
  simp only [Except.ok.injEq] at hEr
  unfold normalizeWithExpectedPower at hN
  dsimp only at hN
  rw [hE] at hN
  simp only [Except.bind] at hN
  have hco : cellCmp (fun a b => decide (a > b))
      (meanDelta ((regular t0 f (n + 3) c).map Prod.fst)) (meanDelta (E.map Prod.fst)) = false := by
    rw [show n + 3 = n + 1 + 2 from rfl, meanDelta_regular, ← hEr,
      show n + 1 + 1 = n + 2 from rfl, meanDelta_regular]
    simp [cellCmp]
  have hsame : normalizeEnergy E E (regular t0 f (n + 3) c) (regular t0 f (n + 3) g) f = .ok (N, I) := by
    rw [← hN]
    unfold normalizeEnergy
    simp only [hco, Bool.false_eq_true, if_false]
  have hres : normalizeWithPvwatts (scaleS q E) ((List.range (n + 3)).map fun k : Nat => (t0 + (k : Int) * f, g k, T k))
        rated poaRef tRef useT gamma (some f) = .ok (mapNormalized (scaleF q) (N, I)) := by
    unfold normalizeWithPvwatts
    rw [hexp, hpoa, C11_measured_unit hq]
    unfold normalizeWithExpectedPower
    dsimp only
    rw [hsame]
    rfl
  have hNv : ∀ t v, (t, v) ∈ N → v = .nan ∨ v = .fin 1 := by
    intro t v htv
    unfold normalizeEnergy at hN
    simp only [hco, Bool.false_eq_true, if_false, Except.bind, hE] at hN
    cases hP : energyFromPower (regular t0 f (n + 3) g) (some f) none .rightLabeled none with
    | error e => rw [hP] at hN; cases hN
    | ok P =>
      rw [hP] at hN
      simp only [Except.ok.injEq, Prod.mk.injEq] at hN
      rw [← hN.1] at htv
      obtain ⟨u, -, hu⟩ := List.mem_map.mp htv
      simp only [Prod.mk.injEq] at hu
      rw [← hu.2]
      have key : ∀ K : List (Int × Flt), (∀ r ∈ K, r.2 = .nan ∨ r.2 = .fin 1) →
          lookupF K u = .nan ∨ lookupF K u = .fin 1 := by
        intro K
        induction K with
        | nil => intro _; left; rfl
        | cons r K ih =>
          intro hK
          unfold lookupF
          split_ifs
          · exact hK r (by simp)
          · exact ih fun r' hr' => hK r' (List.mem_cons_of_mem _ hr')
      refine key _ ?_
      intro r hm
      unfold alignDiv at hm
      obtain ⟨w, -, hw⟩ := List.mem_map.mp hm
      rw [← hw]
      simp only
      cases lookupK E w with
      | none => left; rfl
      | some y =>
        simp only [Flt.ofCell, Flt.div, Flt.ofDiv]
        by_cases hy : y = 0
        · left; simp [hy]
        · right; rw [if_neg hy, div_self hy]
  refine ⟨_, _, hres, ?_, ?_⟩
  · intro k hk x hx hck
    have := hval k hk x hx hck
    refine List.mem_map.mpr ⟨_, this, ?_⟩
    simp only
    congr 1
    split_ifs
    · rfl
    · simp [scaleF]
  · intro t v htv
    obtain ⟨⟨u, w⟩, hm, hw⟩ := List.mem_map.mp htv
    simp only [Prod.mk.injEq] at hw
    rcases hNv u w hm with h | h
    · left; rw [← hw.2, h]; rfl
    · right; rw [← hw.2, h]; simp [scaleF]

/-- four hours, cell temperature 45 °C with −0.5 %/K, night in the third: 80 % of the modelled energy -/
example : let w : List (Int × Cell × Cell) := [(0, some 500, some 25), (hour, some 800, some 45), (2 * hour, some 0, some 20),
      (3 * hour, some 600, some 25)]
    energyFromPower (pvwattsSeries w 5 1000 25 true (some (-1/200))) (some hour) none .rightLabeled none =
      .ok [(hour, some (18 / 5)), (2 * hour, some 0), (3 * hour, some 3)] ∧
    (normalizeWithPvwatts (scaleS (4 / 5) [(hour, some (18 / 5)), (2 * hour, some 0), (3 * hour, some 3)]) w 5 1000 25 true
      (some (-1/200)) (some hour)).map Prod.fst =
      .ok [(hour, .fin (4 / 5)), (2 * hour, .nan), (3 * hour, .fin (4 / 5))] := by decide +kernel

end Verif
