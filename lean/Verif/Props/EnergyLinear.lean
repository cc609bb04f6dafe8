import Verif.Lemmas.EnergySign

/-! # C112: energy is linear and monotone in power (rdtools/normalization.py) -/

namespace Verif
open Linear

/-- `a` times the first series plus `b` times the second, row by row; missing if either is missing -/
def Spec.combination (a b : ℚ) (A B : Series) : Series :=
  List.zipWith (fun r q => (r.1, cellOp (fun x y => a * x + b * y) r.2 q.2)) A B

/-- same timestamps, missing values in the same places -/
def Spec.SameRows (A B : Series) : Prop :=
  A.map (fun r => (r.1, r.2.isSome)) = B.map (fun r => (r.1, r.2.isSome))

instance (A B : Series) : Decidable (Spec.SameRows A B) := by unfold Spec.SameRows; infer_instance

/-- Two series on the same rows are one list of pairs. -/
theorem SameRows.pairs {A B : Series} (h : Spec.SameRows A B) :
    ∃ P, A = pr (1, 0) P ∧ B = pr (0, 1) P ∧ ∀ a b, Spec.combination a b A B = pr (a, b) P := by
  induction A generalizing B with
  | nil =>
    cases B with
    | nil => exact ⟨[], rfl, rfl, fun _ _ => rfl⟩
    | cons q B => cases h
  | cons r A ih =>
    cases B with
    | nil => cases h
    | cons q B =>
      obtain ⟨t, x⟩ := r
      obtain ⟨u, y⟩ := q
      simp only [Spec.SameRows, List.map_cons, List.cons.injEq, Prod.mk.injEq] at h
      obtain ⟨⟨rfl, hxy⟩, h⟩ := h
      obtain ⟨P, h1, h2, h3⟩ := ih h
      cases x with
      | none =>
        cases y with
        | some y => cases hxy
        | none =>
          refine ⟨(t, none) :: P, ?_, ?_, fun a b => ?_⟩
          · rw [h1]; rfl
          · rw [h2]; rfl
          · have := h3 a b
            simp only [Spec.combination, List.zipWith_cons_cons, cellOp] at this ⊢
            rw [this]; rfl
      | some x =>
        cases y with
        | none => cases hxy
        | some y =>
          refine ⟨(t, some (x, y)) :: P, ?_, ?_, fun a b => ?_⟩
          · rw [h1]; simp [pr, lin]
          · rw [h2]; simp [pr, lin]
          · have := h3 a b
            simp only [Spec.combination, List.zipWith_cons_cons, cellOp] at this ⊢
            rw [this]; rfl

theorem combine_pr (a b : ℚ) (Q : List (Int × Option Two)) :
    Spec.combination a b (pr (1, 0) Q) (pr (0, 1) Q) = pr (a, b) Q := by
  induction Q with
  | nil => rfl
  | cons r Q ih =>
    obtain ⟨t, x⟩ := r
    simp only [Spec.combination, pr, List.map_cons, List.zipWith_cons_cons] at ih ⊢
    rw [ih]
    congr 2
    cases x with
    | none => rfl
    | some x => simp [cellOp, lin]

theorem sameRows_pr (w z : Two) (Q : List (Int × Option Two)) : Spec.SameRows (pr w Q) (pr z Q) := by
  unfold Spec.SameRows pr
  rw [List.map_map, List.map_map]
  apply List.map_congr_left
  intro r _
  simp

/-- **C112 (superposition).** The energy of `a` times one power series plus `b` times another one with the
same rows is the same combination of their energies; it fails exactly when one of theirs fails. In
particular the energy of a plant is the sum of the energies of its parts. -/
theorem C112_superposition {A B : Series} (h : Spec.SameRows A B) (a b : ℚ) (tf : Option Int)
    (maxTd : Option ℚ) (ty : PowerType) (fr : Option Int) :
    energyFromPower (Spec.combination a b A B) tf maxTd ty fr =
      (energyFromPower A tf maxTd ty fr).bind fun EA =>
        (energyFromPower B tf maxTd ty fr).map fun EB => Spec.combination a b EA EB := by
  obtain ⟨P, rfl, rfl, h3⟩ := SameRows.pairs h
  obtain ⟨R, hR⟩ := energyFromPower_pr P tf maxTd ty fr
  rw [h3, hR, hR, hR]
  cases R with
  | error e => rfl
  | ok Q => simp only [Except.map, Except.bind, combine_pr]

/-- **C112 (rows of the result).** Two power series with the same rows give energies with the same rows:
which intervals are reported as missing depends on where power is missing, not on its values. -/
theorem C112_same_rows {A B EA EB : Series} (h : Spec.SameRows A B) {tf : Option Int} {maxTd : Option ℚ}
    {ty : PowerType} {fr : Option Int} (hA : energyFromPower A tf maxTd ty fr = .ok EA)
    (hB : energyFromPower B tf maxTd ty fr = .ok EB) : Spec.SameRows EA EB := by
  obtain ⟨P, rfl, rfl, -⟩ := SameRows.pairs h
  obtain ⟨R, hR⟩ := energyFromPower_pr P tf maxTd ty fr
  rw [hR] at hA hB
  cases R with
  | error e => cases hA
  | ok Q =>
    simp only [Except.map, Except.ok.injEq] at hA hB
    rw [← hA, ← hB]
    exact sameRows_pr _ _ _

/-- **C112 (sign).** The energy of power that is never negative is never negative. -/
theorem C112_nonneg {p out : Series} {tf : Option Int} {maxTd : Option ℚ} {ty : PowerType} {fr : Option Int}
    (hp : ∀ t v, (t, some v) ∈ p → 0 ≤ v) (htf : ∀ f, tf = some f → 0 ≤ f) (hfr : ∀ f, fr = some f → 0 ≤ f)
    (h : energyFromPower p tf maxTd ty fr = .ok out) : ∀ t v, (t, some v) ∈ out → 0 ≤ v :=
  NN.energy (p := p) hp htf hfr h

/-- **C112 (interpolation).** `interpolate` has the same two properties. -/
theorem C112_interpolate {A B : Series} (h : Spec.SameRows A B) (a b : ℚ) (target : List Int)
    (maxTd : Option ℚ) :
    interpolateSeries (Spec.combination a b A B) target maxTd =
      (interpolateSeries A target maxTd).bind fun IA =>
        (interpolateSeries B target maxTd).map fun IB => Spec.combination a b IA IB := by
  obtain ⟨P, rfl, rfl, h3⟩ := SameRows.pairs h
  obtain ⟨R, hR⟩ := interpolateSeries_pr P target maxTd
  rw [h3, hR, hR, hR]
  cases R with
  | error e => rfl
  | ok Q => simp only [Except.map, Except.bind, combine_pr]

/-- **C112 (order).** If one power series is at least another with the same rows at every time, its energy is
at least the other's in every interval. -/
theorem C112_monotone {A B EA EB : Series} (h : Spec.SameRows A B)
    (hle : ∀ t x y, (t, some x) ∈ A → (t, some y) ∈ B → x ≤ y) {tf : Option Int} {maxTd : Option ℚ}
    {ty : PowerType} {fr : Option Int} (htf : ∀ f, tf = some f → 0 ≤ f) (hfr : ∀ f, fr = some f → 0 ≤ f)
    (hA : energyFromPower A tf maxTd ty fr = .ok EA) (hB : energyFromPower B tf maxTd ty fr = .ok EB) :
    ∀ k : Nat, ∀ t x y, EA[k]? = some (t, some x) → EB[k]? = some (t, some y) → x ≤ y := by
  have hD := C112_superposition h (-1) 1 tf maxTd ty fr
  rw [hA, hB] at hD
  simp only [Except.bind, Except.map] at hD
  have hnn := C112_nonneg (p := Spec.combination (-1) 1 A B) (fun t v hv => ?_) htf hfr hD
  · intro k t x y hx hy
    have := hnn t (-1 * x + 1 * y) (by
      apply List.mem_of_getElem? (i := k)
      unfold Spec.combination
      rw [List.getElem?_zipWith, hx, hy]
      rfl)
    linarith
  · obtain ⟨k, hk⟩ := List.mem_iff_getElem?.mp hv
    unfold Spec.combination at hk
    rw [List.getElem?_zipWith] at hk
    cases ha : A[k]? with
    | none => rw [ha] at hk; cases hk
    | some r =>
      cases hb : B[k]? with
      | none => rw [ha, hb] at hk; cases hk
      | some q =>
        rw [ha, hb] at hk
        obtain ⟨t1, x⟩ := r
        obtain ⟨t2, y⟩ := q
        have hkk : t1 = t2 := by
          have := congrArg (fun l => l[k]?) h
          simp only [List.getElem?_map, ha, hb, Option.map_some, Option.some.injEq, Prod.mk.injEq] at this
          exact this.1
        subst hkk
        simp only [Option.some.injEq, Prod.mk.injEq] at hk
        obtain ⟨-, hv⟩ := hk
        cases x with
        | none => cases hv
        | some x =>
          cases y with
          | none => cases hv
          | some y =>
            simp only [cellOp, Option.some.injEq] at hv
            have := hle t1 x y (List.mem_of_getElem? ha) (List.mem_of_getElem? hb)
            linarith

/-- half-hourly power of two inverters, one reading missing -/
def exInv1 : Series := [(0, some 2), (1800000000000, some 4), (3600000000000, none), (5400000000000, some 6),
  (7200000000000, some 8)]
def exInv2 : Series := [(0, some 1), (1800000000000, some 3), (3600000000000, none), (5400000000000, some 5),
  (7200000000000, some 1)]

/-- helper for the examples: the values of a result -/
def exVals (e : Except PyErr Series) : Option (List (Int × Cell)) := e.toOption

example : Spec.SameRows exInv1 exInv2 ∧
    exVals (energyFromPower exInv1 (some 3600000000000) (some 3600000000000) .rightLabeled none) =
      some [(3600000000000, some 5), (7200000000000, some 7)] ∧
    exVals (energyFromPower exInv2 (some 3600000000000) (some 3600000000000) .rightLabeled none) =
      some [(3600000000000, some 4), (7200000000000, some 3)] ∧
    exVals (energyFromPower (Spec.combination 1 1 exInv1 exInv2) (some 3600000000000) (some 3600000000000)
      .rightLabeled none) = some [(3600000000000, some 9), (7200000000000, some 10)] := by
  decide +kernel

/-- **C112 (missing data).** The hypothesis about missing values is needed: where one part misses a reading that the
other has, the energy of the sum is not the sum of the energies. -/
theorem C112_missing_refuted : ∃ (A B : Series) (f : Int) (m : ℚ) (EA EB ES : List (Int × Cell)),
    A.map Prod.fst = B.map Prod.fst ∧
    exVals (energyFromPower A (some f) (some m) .rightLabeled none) = some EA ∧
    exVals (energyFromPower B (some f) (some m) .rightLabeled none) = some EB ∧
    exVals (energyFromPower (Spec.combination 1 1 A B) (some f) (some m) .rightLabeled none) = some ES ∧
    (∀ r ∈ ES, r.2 ≠ none) ∧ ES ≠ Spec.combination 1 1 EA EB :=
  ⟨exInv1, exInv2.map (fun r => (r.1, r.2.elim (some 7) some)), 3600000000000, 3600000000000,
    [(3600000000000, some 5), (7200000000000, some 7)],
    [(3600000000000, some 5), (7200000000000, some 3)],
    [(3600000000000, some 9), (7200000000000, some 10)],
    by decide +kernel, by decide +kernel, by decide +kernel, by decide +kernel, by decide +kernel, by decide +kernel⟩

end Verif
