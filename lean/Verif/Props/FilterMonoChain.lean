import Verif.Props.ChainsFilter

/-! # Property C126 for whole analyses -/

namespace Verif.Chains
variable {Loc ρ σ α : Type}

theorem applied_name {env : Env Loc ρ σ} {s : TA Loc ρ σ} {energy : Series} {c : Case} {name : String}
    {r : Except PyErr BMask} (h : Spec.Applied env s energy c name r) :
    name ∈ Spec.names c ∧ s.params.items.get? name ≠ none := by
  cases h with
  | normalized h => refine ⟨?_, by rw [h]; simp⟩; cases c <;> simp [Spec.names]
  | poaSensor h => exact ⟨by simp [Spec.names], by rw [h]; simp⟩
  | poaClearsky h => exact ⟨by simp [Spec.names], by rw [h]; simp⟩
  | tcellSensor h => exact ⟨by simp [Spec.names], by rw [h]; simp⟩
  | tcellClearsky h => exact ⟨by simp [Spec.names], by rw [h]; simp⟩
  | clip h => refine ⟨?_, by rw [h]; simp⟩; cases c <;> simp [Spec.names]
  | hourAngle h => refine ⟨?_, by rw [h]; simp⟩; cases c <;> simp [Spec.names]
  | clearsky h => exact ⟨by simp [Spec.names], by rw [h]; simp⟩
  | sensorClearsky h => refine ⟨?_, by rw [h]; simp⟩; cases c <;> simp [Spec.names]

/-- **C126 (whole filtering).** If the filters of `s₂` are those of `s` (or fewer of them) with parameters for which none of
them removes a point it kept before, and the ad hoc filter of `s₂` accepts what that of `s` accepts, then every point kept by
the filtering of `s` is kept by that of `s₂`. -/
theorem C126_analysis {env : Env Loc ρ σ} {energy : Series} {c : Case} {s s₂ s' s₂' : TA Loc ρ σ}
    (hfewer : ∀ name ∈ Spec.names c, s₂.params.items.get? name ≠ none → s.params.items.get? name ≠ none)
    (hlooser : ∀ name m m₂, Spec.Applied env s energy c name (.ok m) → Spec.Applied env s₂ energy c name (.ok m₂) →
      ∀ t, verdictAt m t = true → verdictAt m₂ t = true)
    (hadhoc : ∀ t, Spec.AdHocAccepts s.params t → Spec.AdHocAccepts s₂.params t)
    (h : filter env energy c s = (.ok (), s')) (h₂ : filter env energy c s₂ = (.ok (), s₂'))
    {m m₂ : BMask} (hm : (s'.out c).mask = some m) (hm₂ : (s₂'.out c).mask = some m₂) {t : Int}
    (ht : verdictAt m t = true) : verdictAt m₂ t = true := by
  obtain ⟨m0, e0, hc⟩ := C53_conjunction h
  rw [hm] at e0; cases e0
  obtain ⟨m1, e1, hc₂⟩ := C53_conjunction h₂
  rw [hm₂] at e1; cases e1
  obtain ⟨h1, h2, h3⟩ := (hc t).mp ht
  refine (hc₂ t).mpr ⟨h1, ?_, hadhoc t h3⟩
  intro name r hr
  obtain ⟨hn, hg⟩ := applied_name hr
  obtain ⟨r0, hr0⟩ := C53_enabled h hn (hfewer name hn hg)
  obtain ⟨a, rfl, ha⟩ := h2 name r0 hr0
  obtain ⟨comps, -, -, -, h5, -⟩ := filter_ok h₂
  obtain ⟨b, rfl, -⟩ := h5 name r hr
  exact ⟨b, rfl, hlooser name a b hr0 hr t ha⟩

/-- a lower limit of irradiance brings back the dark row of the example, and keeps the rest -/
example : let env : Env Unit Nat Nat :=
      { exEnv with poaF := fun kw x => .ok (x.map fun r => (r.1, decide ((if kw = "low" then 50 else 200) < r.2.getD 0))) }
    let s₂ : TA Unit Nat Nat := { exTA with params := ⟨validFilterParams, [("poa_filter", .kwargs "low")]⟩ }
    let s : TA Unit Nat Nat := { exTA with params := ⟨validFilterParams, [("poa_filter", .kwargs "")]⟩ }
    (filter env exTA.pvEnergy .sensor s).2.sensor.mask = some [(0, true), (1, true), (2, false), (800 * dayNs, true)] ∧
    (filter env exTA.pvEnergy .sensor s₂).2.sensor.mask = some [(0, true), (1, true), (2, true), (800 * dayNs, true)] := by
  decide +kernel

end Verif.Chains
