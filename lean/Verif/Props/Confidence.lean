import Verif.Props.DegradationStats
import Verif.Props.SrrSummaries
import Verif.Props.CodsIntervals
import Verif.Props.YearOnYear
import Verif.Lemmas.SrrExample

/-!
# C125: confidence level and exceedance probability

All functions that report intervals, run twice on the same input with the same random numbers.
-/

namespace Verif
open Spec

/-! ## specification -/

/-- the interval `inner` lies in `outer` -/
def Spec.Nested (inner outer : ℚ × ℚ) : Prop := outer.1 ≤ inner.1 ∧ inner.2 ≤ outer.2

/-- the same for limits that may be missing; they are missing in both or in neither -/
def Spec.NestedCells (inner outer : Cell × Cell) : Prop :=
  (inner.1.isSome = outer.1.isSome ∧ inner.2.isSome = outer.2.isSome) ∧ (∀ a b, inner.1 = some a → outer.1 = some b → b ≤ a) ∧ ∀ a b, inner.2 = some a → outer.2 = some b → a ≤ b

/-! ## lemmas -/

theorem ebind_ok {α β : Type} {x : Except PyErr α} {f : α → Except PyErr β} {b : β} :
    x.bind f = .ok b ↔ ∃ a, x = .ok a ∧ f a = .ok b := by
  cases x <;> simp [Except.bind]

theorem confidenceInterval_nested {l : List ℚ} {e1 e2 c1 c2 : ℚ} {a b : (ℚ × ℚ) × ℚ}
    (h1 : confidenceInterval l e1 c1 = .ok a) (h2 : confidenceInterval l e2 c2 = .ok b) :
    (c1 ≤ c2 → Spec.Nested a.1 b.1) ∧ (e1 ≤ e2 → b.2 ≤ a.2) := by
  obtain ⟨p1, p2, p3⟩ := confidenceInterval_ok h1
  obtain ⟨q1, q2, q3⟩ := confidenceInterval_ok h2
  exact ⟨fun h => ⟨percentileE_mono q1 p1 (by linarith), percentileE_mono p2 q2 (by linarith)⟩,
    fun h => percentileE_mono q3 p3 (by linarith)⟩

theorem percentileE_levels {l : List ℚ} {p q v : ℚ} (h : percentileE l p = .ok v) :
    (∃ w, percentileE l q = .ok w) ↔ 0 ≤ q ∧ q ≤ 100 := by
  constructor
  · rintro ⟨w, hw⟩
    exact ⟨(percentileE_ok hw).1, (percentileE_ok hw).2.1⟩
  · rintro ⟨h0, h1⟩
    refine percentileE_defined ?_ h0 h1
    rintro rfl
    have := (percentileE_ok h).2.2
    simp [quantile] at this

theorem confidenceInterval_levels {l : List ℚ} {e1 e2 c1 c2 : ℚ} {a : (ℚ × ℚ) × ℚ}
    (h : confidenceInterval l e1 c1 = .ok a) :
    (∃ b, confidenceInterval l e2 c2 = .ok b) ↔ |c2| ≤ 100 ∧ 0 ≤ e2 ∧ e2 ≤ 100 := by
  obtain ⟨p1, -, -⟩ := confidenceInterval_ok h
  rw [abs_le]
  constructor
  · rintro ⟨b, hb⟩
    obtain ⟨q1, q2, q3⟩ := confidenceInterval_ok hb
    have a1 := (percentileE_ok q1)
    have a2 := (percentileE_ok q2)
    have a3 := (percentileE_ok q3)
    exact ⟨⟨by linarith [a1.1, a1.2.1, a2.1, a2.2.1], by linarith [a1.1, a1.2.1, a2.1, a2.2.1]⟩,
      by linarith [a3.1, a3.2.1], by linarith [a3.1, a3.2.1]⟩
  · rintro ⟨⟨c0, c1⟩, e0, e1⟩
    obtain ⟨x, hx⟩ := (percentileE_levels (q := 50 - c2 / 2) p1).mpr ⟨by linarith, by linarith⟩
    obtain ⟨y, hy⟩ := (percentileE_levels (q := 50 + c2 / 2) p1).mpr ⟨by linarith, by linarith⟩
    obtain ⟨z, hz⟩ := (percentileE_levels (q := 100 - e2) p1).mpr ⟨by linarith, by linarith⟩
    refine ⟨((x, y), z), ?_⟩
    unfold confidenceInterval
    rw [hx, hy, hz]
    rfl

/-! ## year on year -/

/-- **C125 (year on year).** With the same data and random numbers, the level and the exceedance probability change nothing but the
interval and the exceedance level: a higher level gives an interval around the one of the lower level, a higher
exceedance probability a rate that is at most as high. -/
theorem C125_yoy {inferFreq : List Int → Option Int} {recenter : Bool} {e1 c1 e2 c2 : ℚ} {method : Uncertainty} {block : Nat}
    {choose : List ℚ → List (List ℚ)} {draws : List (List Nat)} {s : Series} {r1 r2 : YoYResult}
    (h1 : yoy inferFreq recenter e1 c1 method block choose draws s = .ok r1)
    (h2 : yoy inferFreq recenter e2 c2 method block choose draws s = .ok r2) :
    r1.rd = r2.rd ∧ r1.values = r2.values ∧ r1.renorm = r2.renorm ∧ r1.usage = r2.usage ∧
      (c1 ≤ c2 → ∀ i j, r1.ci = some i → r2.ci = some j → Spec.Nested i j) ∧
      (e1 ≤ e2 → ∀ x y, r1.exceedance = some x → r2.exceedance = some y → y ≤ x) := by
  unfold yoy at h1 h2
  rw [ebind_ok] at h1 h2
  obtain ⟨c, hc, h1⟩ := h1
  obtain ⟨c', hc', h2⟩ := h2
  rw [hc] at hc'
  cases hc'
  cases method with
  | simple =>
    simp only at h1 h2
    rw [ebind_ok] at h1 h2
    obtain ⟨a, ha, h1⟩ := h1
    obtain ⟨b, hb, h2⟩ := h2
    cases h1
    cases h2
    obtain ⟨n1, n2⟩ := confidenceInterval_nested ha hb
    refine ⟨rfl, rfl, rfl, rfl, fun h i j hi hj => ?_, fun h x y hx hy => ?_⟩
    · cases hi; cases hj; exact n1 h
    · cases hx; cases hy; exact n2 h
  | circularBlock =>
    simp only at h1 h2
    rw [ebind_ok] at h1 h2
    obtain ⟨sm, hsm, h1⟩ := h1
    obtain ⟨sm', hsm', h2⟩ := h2
    rw [hsm] at hsm'
    cases hsm'
    rw [ebind_ok] at h1 h2
    obtain ⟨rt, hrt, h1⟩ := h1
    obtain ⟨rt', hrt', h2⟩ := h2
    rw [hrt] at hrt'
    cases hrt'
    rw [ebind_ok] at h1 h2
    obtain ⟨a, ha, h1⟩ := h1
    obtain ⟨b, hb, h2⟩ := h2
    cases h1
    cases h2
    obtain ⟨n1, n2⟩ := confidenceInterval_nested ha hb
    refine ⟨rfl, rfl, rfl, rfl, fun h i j hi hj => ?_, fun h x y hx hy => ?_⟩
    · cases hi; cases hj; exact n1 h
    · cases hx; cases hy; exact n2 h
  | none =>
    simp only at h1 h2
    cases h1
    cases h2
    exact ⟨rfl, rfl, rfl, rfl, fun _ i j hi => (by cases hi), fun _ x y hx => (by cases hx)⟩

/-- if there is a result at one level, there is one for exactly the levels of absolute value at most 100 % and exceedance
probabilities in [0 %, 100 %] (and for all levels without uncertainty) -/
theorem C125_yoy_levels {inferFreq : List Int → Option Int} {recenter : Bool} {e1 c1 : ℚ} (e2 c2 : ℚ) {method : Uncertainty}
    {block : Nat} {choose : List ℚ → List (List ℚ)} {draws : List (List Nat)} {s : Series} {r1 : YoYResult}
    (h1 : yoy inferFreq recenter e1 c1 method block choose draws s = .ok r1) :
    (∃ r2, yoy inferFreq recenter e2 c2 method block choose draws s = .ok r2) ↔
      (method = .none ∨ (|c2| ≤ 100 ∧ 0 ≤ e2 ∧ e2 ≤ 100)) := by
  unfold yoy at h1 ⊢
  rw [ebind_ok] at h1
  obtain ⟨c, hc, h1⟩ := h1
  cases method with
  | simple =>
    simp only at h1
    rw [ebind_ok] at h1
    obtain ⟨a, ha, -⟩ := h1
    rw [← confidenceInterval_levels (e2 := e2) (c2 := c2) ha]
    rw [hc]
    simp only [Except.bind, reduceCtorEq, false_or]
    constructor
    · rintro ⟨r, hr⟩
      obtain ⟨b, hb, -⟩ := ebind_ok.mp hr
      exact ⟨b, hb⟩
    · rintro ⟨b, hb⟩
      rw [hb]
      exact ⟨_, rfl⟩
  | circularBlock =>
    simp only at h1
    rw [ebind_ok] at h1
    obtain ⟨sm, hsm, h1⟩ := h1
    rw [ebind_ok] at h1
    obtain ⟨rt, hrt, h1⟩ := h1
    rw [ebind_ok] at h1
    obtain ⟨a, ha, -⟩ := h1
    rw [← confidenceInterval_levels (e2 := e2) (c2 := c2) ha]
    rw [hc]
    simp only [reduceCtorEq, false_or]
    constructor
    · rintro ⟨r, hr⟩
      obtain ⟨c', hc', hr⟩ := ebind_ok.mp hr
      cases hc'
      obtain ⟨sm', hsm', hr⟩ := ebind_ok.mp hr
      rw [hsm] at hsm'
      cases hsm'
      obtain ⟨rt', hrt', hr⟩ := ebind_ok.mp hr
      rw [hrt] at hrt'
      cases hrt'
      obtain ⟨b, hb, -⟩ := ebind_ok.mp hr
      exact ⟨b, hb⟩
    · rintro ⟨b, hb⟩
      refine ⟨_, ebind_ok.mpr ⟨c, rfl, ebind_ok.mpr ⟨sm, hsm, ebind_ok.mpr ⟨rt, hrt, ebind_ok.mpr ⟨b, hb, rfl⟩⟩⟩⟩⟩
  | none =>
    rw [hc]
    simp [Except.bind]

/-- a negative level, which is accepted, gives the interval of the positive one with its limits exchanged -/
theorem C125_yoy_negative {inferFreq : List Int → Option Int} {recenter : Bool} {e c : ℚ} {method : Uncertainty} {block : Nat}
    {choose : List ℚ → List (List ℚ)} {draws : List (List Nat)} {s : Series} {r1 r2 : YoYResult}
    (h1 : yoy inferFreq recenter e c method block choose draws s = .ok r1)
    (h2 : yoy inferFreq recenter e (-c) method block choose draws s = .ok r2) : r2.ci = r1.ci.map Prod.swap := by
  have key : ∀ {l : List ℚ} {a b : (ℚ × ℚ) × ℚ}, confidenceInterval l e c = .ok a → confidenceInterval l e (-c) = .ok b →
      b.1 = a.1.swap := by
    intro l a b ha hb
    obtain ⟨p1, p2, -⟩ := confidenceInterval_ok ha
    obtain ⟨q1, q2, -⟩ := confidenceInterval_ok hb
    have e1 : 50 - -c / 2 = 50 + c / 2 := by ring
    have e2 : 50 + -c / 2 = 50 - c / 2 := by ring
    rw [e1, p2] at q1
    rw [e2, p1] at q2
    exact Prod.ext (Except.ok.inj q1).symm (Except.ok.inj q2).symm
  unfold yoy at h1 h2
  rw [ebind_ok] at h1 h2
  obtain ⟨x, hx, h1⟩ := h1
  obtain ⟨x', hx', h2⟩ := h2
  rw [hx] at hx'
  cases hx'
  cases method with
  | simple =>
    simp only at h1 h2
    rw [ebind_ok] at h1 h2
    obtain ⟨a, ha, h1⟩ := h1
    obtain ⟨b, hb, h2⟩ := h2
    cases h1
    cases h2
    simp only [Option.map_some]
    rw [key ha hb]
  | circularBlock =>
    simp only at h1 h2
    rw [ebind_ok] at h1 h2
    obtain ⟨sm, hsm, h1⟩ := h1
    obtain ⟨sm', hsm', h2⟩ := h2
    rw [hsm] at hsm'
    cases hsm'
    rw [ebind_ok] at h1 h2
    obtain ⟨rt, hrt, h1⟩ := h1
    obtain ⟨rt', hrt', h2⟩ := h2
    rw [hrt] at hrt'
    cases hrt'
    rw [ebind_ok] at h1 h2
    obtain ⟨a, ha, h1⟩ := h1
    obtain ⟨b, hb, h2⟩ := h2
    cases h1
    cases h2
    simp only [Option.map_some]
    rw [key ha hb]
  | none =>
    simp only at h1 h2
    cases h1
    cases h2
    rfl

/-! ## regressions -/

theorem degradationCI_nested {ps : List (ℚ × ℚ)} {c1 c2 : ℚ} {a b : ℚ × ℚ}
    (h1 : degradationCI ps c1 = .ok a) (h2 : degradationCI ps c2 = .ok b) (h : c1 ≤ c2) : Spec.Nested a b := by
  unfold degradationCI at h1 h2
  obtain ⟨lo, hlo, h1⟩ := ebind_ok.mp h1
  obtain ⟨hi, hhi, h1⟩ := ebind_ok.mp h1
  obtain ⟨lo', hlo', h2⟩ := ebind_ok.mp h2
  obtain ⟨hi', hhi', h2⟩ := ebind_ok.mp h2
  cases h1
  cases h2
  have a := percentileE_mono hlo' hlo (by linarith)
  have b := percentileE_mono hhi hhi' (by linarith)
  exact ⟨by simp only; linarith, by simp only; linarith⟩

theorem degradationCI_levels {ps : List (ℚ × ℚ)} {c1 c2 : ℚ} {a : ℚ × ℚ} (h1 : degradationCI ps c1 = .ok a) :
    (∃ b, degradationCI ps c2 = .ok b) ↔ |c2| ≤ 100 := by
  unfold degradationCI at h1 ⊢
  obtain ⟨lo, hlo, -⟩ := ebind_ok.mp h1
  rw [abs_le]
  constructor
  · rintro ⟨r2, h2⟩
    obtain ⟨lo', hlo', h2⟩ := ebind_ok.mp h2
    obtain ⟨hi', hhi', h2⟩ := ebind_ok.mp h2
    have a1 := percentileE_ok hlo'
    have a2 := percentileE_ok hhi'
    exact ⟨by linarith [a1.1, a1.2.1, a2.1, a2.2.1], by linarith [a1.1, a1.2.1, a2.1, a2.2.1]⟩
  · rintro ⟨c0, c1⟩
    obtain ⟨x, hx⟩ := (percentileE_levels (q := 50 - c2 / 2) hlo).mpr ⟨by linarith, by linarith⟩
    obtain ⟨y, hy⟩ := (percentileE_levels (q := 50 + c2 / 2) hlo).mpr ⟨by linarith, by linarith⟩
    exact ⟨_, ebind_ok.mpr ⟨x, hx, ebind_ok.mpr ⟨y, hy, rfl⟩⟩⟩

theorem emap_ok {α β : Type} {x : Except PyErr α} {f : α → β} {b : β} : x.map f = .ok b ↔ ∃ a, x = .ok a ∧ f a = b := by
  cases x <;> simp [Except.map]

/-- **C125 (ordinary least squares).** The level changes nothing but the interval, a higher one gives an interval around the
first, and every level of absolute value at most 100 % has a result. -/
theorem C125_ols {root : RegressionInfo → DrawMatrix} {zs : List (ℚ × ℚ)} {c1 : ℚ} (c2 : ℚ) {s : Series} {i1 : RegressionInfo}
    {v1 : ℚ × ℚ} (h1 : degradationOlsFull root zs c1 s = .ok (some (i1, v1))) :
    (|c2| ≤ 100 ↔ ∃ v2, degradationOlsFull root zs c2 s = .ok (some (i1, v2))) ∧
    ∀ i2 v2, degradationOlsFull root zs c2 s = .ok (some (i2, v2)) → i1 = i2 ∧ (c1 ≤ c2 → Spec.Nested v1 v2) := by
  unfold degradationOlsFull at h1 ⊢
  split_ifs at h1 ⊢ with hs
  cases hr : regressionInfo (olsRows s) with
  | none => rw [hr] at h1; cases h1
  | some i =>
    rw [hr] at h1
    simp only at h1 ⊢
    obtain ⟨v, hv, hh⟩ := emap_ok.mp h1
    cases hh
    constructor
    · rw [← degradationCI_levels (c2 := c2) hv]
      constructor
      · rintro ⟨b, hb⟩
        exact ⟨b, emap_ok.mpr ⟨b, hb, rfl⟩⟩
      · rintro ⟨b, hb⟩
        obtain ⟨b', hb', -⟩ := emap_ok.mp hb
        exact ⟨b', hb'⟩
    · intro i2 v2 h2
      obtain ⟨w, hw, hh⟩ := emap_ok.mp h2
      cases hh
      exact ⟨rfl, degradationCI_nested hv hw⟩

/-- **C125 (classical decomposition).** The same; the moving average and its trend test do not depend on the level either. -/
theorem C125_classical {root : RegressionInfo → DrawMatrix} {zs : List (ℚ × ℚ)} {c1 crit : ℚ} (c2 : ℚ) {fd : Bool} {s : Series}
    {i1 : RegressionInfo} {v1 : ℚ × ℚ} {ma1 : List Cell} {t1 : Trend}
    (h1 : degradationClassicalFull root zs c1 crit fd s = .ok (some (i1, v1), ma1, t1)) :
    (|c2| ≤ 100 ↔ ∃ v2, degradationClassicalFull root zs c2 crit fd s = .ok (some (i1, v2), ma1, t1)) ∧
    ∀ i2 v2 ma2 t2, degradationClassicalFull root zs c2 crit fd s = .ok (some (i2, v2), ma2, t2) →
      i1 = i2 ∧ ma1 = ma2 ∧ t1 = t2 ∧ (c1 ≤ c2 → Spec.Nested v1 v2) := by
  unfold degradationClassicalFull at h1 ⊢
  split_ifs at h1 ⊢ with h0 hs
  simp only at h1 ⊢
  cases hr : regressionInfo (olsRows ((s.map Prod.fst).zip (centeredYearMean s))) with
  | none => rw [hr] at h1; cases h1
  | some i =>
    rw [hr] at h1
    simp only at h1 ⊢
    obtain ⟨v, hv, hh⟩ := emap_ok.mp h1
    cases hh
    constructor
    · rw [← degradationCI_levels (c2 := c2) hv]
      constructor
      · rintro ⟨b, hb⟩
        exact ⟨b, emap_ok.mpr ⟨b, hb, rfl⟩⟩
      · rintro ⟨b, hb⟩
        obtain ⟨b', hb', -⟩ := emap_ok.mp hb
        exact ⟨b', hb'⟩
    · intro i2 v2 ma2 t2 h2
      obtain ⟨w, hw, hh⟩ := emap_ok.mp h2
      cases hh
      exact ⟨rfl, rfl, rfl, degradationCI_nested hv hw⟩

/-! ## stochastic rate and recovery -/

/-- **C125 (soiling).** With the same data and random numbers, the level and the exceedance probability of `soiling_srr` change
nothing but the interval and the exceedance level. -/
theorem C125_srr {ord : List Nat → List Nat} {zs : List (ℚ × ℚ) → ℚ} {o : DailyOpts} {ro : ResultOpts} {m : SrrMethod}
    {e1 c1 e2 c2 : ℚ} {draws : List SrrDraw} {pm insol : Series} {precip : Option Series} {r1 r2 : SrrOut}
    (h1 : soilingSrr ord zs o ro m e1 c1 draws pm insol precip = .ok r1)
    (h2 : soilingSrr ord zs o ro m e2 c2 draws pm insol precip = .ok r2) :
    r1.ratio = r2.ratio ∧ r1.renorm = r2.renorm ∧ r1.profiles = r2.profiles ∧ r1.table = r2.table ∧ r1.perfect = r2.perfect ∧
      (c1 ≤ c2 → Spec.Nested (r1.low, r1.high) (r2.low, r2.high)) ∧ (e1 ≤ e2 → r2.exceedance ≤ r1.exceedance) := by
  unfold soilingSrr at h1 h2
  obtain ⟨i, hi, h1⟩ := ebind_ok.mp h1
  obtain ⟨d, hd, h1⟩ := ebind_ok.mp h1
  obtain ⟨r, hr, h1⟩ := ebind_ok.mp h1
  obtain ⟨mc, hmc, h1⟩ := ebind_ok.mp h1
  rw [hi, Except.bind, hd, Except.bind, hr, Except.bind, hmc, Except.bind] at h2
  unfold srrSummary at h1 h2
  split_ifs at h1 h2
  simp only at h1 h2
  obtain ⟨p, hp, h1⟩ := ebind_ok.mp h1
  obtain ⟨lo, hlo, h1⟩ := ebind_ok.mp h1
  obtain ⟨hi', hhi, h1⟩ := ebind_ok.mp h1
  obtain ⟨ex, hex, h1⟩ := ebind_ok.mp h1
  obtain ⟨p', hp', h2⟩ := ebind_ok.mp h2
  obtain ⟨lo', hlo', h2⟩ := ebind_ok.mp h2
  obtain ⟨hi'', hhi', h2⟩ := ebind_ok.mp h2
  obtain ⟨ex', hex', h2⟩ := ebind_ok.mp h2
  rw [hp] at hp'
  cases hp'
  cases h1
  cases h2
  exact ⟨rfl, rfl, rfl, rfl, rfl, fun h => ⟨percentileE_mono hlo' hlo (by linarith), percentileE_mono hhi hhi' (by linarith)⟩,
    fun h => percentileE_mono hex' hex (by linarith)⟩

theorem C125_srr_levels {ord : List Nat → List Nat} {zs : List (ℚ × ℚ) → ℚ} {o : DailyOpts} {ro : ResultOpts} {m : SrrMethod}
    {e1 c1 : ℚ} (e2 c2 : ℚ) {draws : List SrrDraw} {pm insol : Series} {precip : Option Series} {r1 : SrrOut}
    (h1 : soilingSrr ord zs o ro m e1 c1 draws pm insol precip = .ok r1) :
    (∃ r2, soilingSrr ord zs o ro m e2 c2 draws pm insol precip = .ok r2) ↔ |c2| ≤ 100 ∧ 0 ≤ e2 ∧ e2 ≤ 100 := by
  unfold soilingSrr at h1 ⊢
  obtain ⟨i, hi, h1⟩ := ebind_ok.mp h1
  obtain ⟨d, hd, h1⟩ := ebind_ok.mp h1
  obtain ⟨r, hr, h1⟩ := ebind_ok.mp h1
  obtain ⟨mc, hmc, h1⟩ := ebind_ok.mp h1
  rw [hi, Except.bind, hd, Except.bind, hr, Except.bind, hmc, Except.bind]
  unfold srrSummary at h1 ⊢
  split_ifs at h1 with hall
  rw [if_neg hall]
  simp only at h1 ⊢
  obtain ⟨p, hp, h1⟩ := ebind_ok.mp h1
  rw [hp, Except.bind, abs_le]
  constructor
  · rintro ⟨r2, h2⟩
    obtain ⟨lo', hlo', h2⟩ := ebind_ok.mp h2
    obtain ⟨hi'', hhi', h2⟩ := ebind_ok.mp h2
    obtain ⟨ex', hex', h2⟩ := ebind_ok.mp h2
    have a1 := percentileE_ok hlo'
    have a2 := percentileE_ok hhi'
    have a3 := percentileE_ok hex'
    exact ⟨⟨by linarith [a1.1, a1.2.1, a2.1, a2.2.1], by linarith [a1.1, a1.2.1, a2.1, a2.2.1]⟩,
      by linarith [a3.1, a3.2.1], by linarith [a3.1, a3.2.1]⟩
  · rintro ⟨⟨c0, c1⟩, e0, e1⟩
    obtain ⟨x, hx⟩ := (percentileE_levels (q := 50 - c2 / 2) hp).mpr ⟨by linarith, by linarith⟩
    obtain ⟨y, hy⟩ := (percentileE_levels (q := 50 + c2 / 2) hp).mpr ⟨by linarith, by linarith⟩
    obtain ⟨z, hz⟩ := (percentileE_levels (q := 100 - e2) hp).mpr ⟨by linarith, by linarith⟩
    exact ⟨_, ebind_ok.mpr ⟨x, hx, ebind_ok.mpr ⟨y, hy, ebind_ok.mpr ⟨z, hz, rfl⟩⟩⟩⟩

/-! ## annual and monthly tables -/

theorem forall₂_same {α β γ : Type} {R : α → β → Prop} {S : α → γ → Prop} {T : β → γ → Prop} {l : List α} {r : List β} {q : List γ}
    (h1 : List.Forall₂ R l r) (h2 : List.Forall₂ S l q) (h : ∀ a b c, R a b → S a c → T b c) : List.Forall₂ T r q := by
  induction h1 generalizing q with
  | nil => cases h2; exact .nil
  | cons hr _ ih =>
    cases h2 with
    | cons hs h2 => exact .cons (h _ _ _ hr hs) (ih h2)

theorem quantileE_le {l : List ℚ} {p q : ℚ} {v w : Cell} (h1 : quantileE l p = .ok v) (h2 : quantileE l q = .ok w) (h : p ≤ q)
    {a b : ℚ} (ha : v = some a) (hb : w = some b) : a ≤ b := by
  obtain ⟨p0, p1, hv⟩ := quantileE_ok h1
  obtain ⟨q0, q1, hw⟩ := quantileE_ok h2
  exact quantile_mono (hv.trans ha) (hw.trans hb) p0 h q1

theorem quantileE_presence {l : List ℚ} {p q : ℚ} {v w : Cell} (h1 : quantileE l p = .ok v) (h2 : quantileE l q = .ok w) :
    v.isSome = w.isSome := by
  rw [← (quantileE_ok h1).2.2, ← (quantileE_ok h2).2.2, Bool.eq_iff_iff, quantile_isSome, quantile_isSome]

/-- **C125 (annual table).** The level changes nothing but the limits, and a higher level widens every interval. -/
theorem C125_annual {profiles : List (List (Int × Cell))} {insol : Series} {c1 c2 : ℚ} {r1 r2 : List AnnualRow}
    (h1 : annualSoilingRatios profiles insol c1 = .ok r1) (h2 : annualSoilingRatios profiles insol c2 = .ok r2) :
    List.Forall₂ (fun a b => a.year = b.year ∧ a.median = b.median ∧ (c1 ≤ c2 → Spec.NestedCells (a.low, a.high) (b.low, b.high)))
      r1 r2 := by
  unfold annualSoilingRatios at h1 h2
  split_ifs at h1 h2
  refine forall₂_same (exceptMapM_ok h1) (exceptMapM_ok h2) ?_
  intro y a b ha hb
  simp only at ha hb
  obtain ⟨m, hm, ha⟩ := ebind_ok.mp ha
  obtain ⟨lo, hlo, ha⟩ := ebind_ok.mp ha
  obtain ⟨hi, hhi, ha⟩ := ebind_ok.mp ha
  obtain ⟨m', hm', hb⟩ := ebind_ok.mp hb
  obtain ⟨lo', hlo', hb⟩ := ebind_ok.mp hb
  obtain ⟨hi', hhi', hb⟩ := ebind_ok.mp hb
  rw [hm] at hm'
  cases hm'
  cases ha
  cases hb
  exact ⟨rfl, rfl, fun h => ⟨⟨quantileE_presence hlo hlo', quantileE_presence hhi hhi'⟩, fun a b ha hb => quantileE_le hlo' hlo (by linarith) hb ha,
    fun a b ha hb => quantileE_le hhi hhi' (by linarith) ha hb⟩⟩

/-- **C125 (monthly table).** -/
theorem C125_monthly {u : Int → Nat → Nat → ℚ} {minLen : Int} {maxErr : ℚ} {reps : Nat} {c1 c2 : ℚ} {tab : List Summary}
    {r1 r2 : List MonthRow} (h1 : monthlySoilingRates u minLen maxErr reps c1 tab = .ok r1)
    (h2 : monthlySoilingRates u minLen maxErr reps c2 tab = .ok r2) :
    List.Forall₂ (fun a b => a.month = b.month ∧ a.median = b.median ∧ a.count = b.count ∧
      (c1 ≤ c2 → Spec.NestedCells (a.low, a.high) (b.low, b.high))) r1 r2 := by
  unfold monthlySoilingRates at h1 h2
  refine forall₂_same (exceptMapM_ok h1) (exceptMapM_ok h2) ?_
  intro y a b ha hb
  simp only at ha hb
  split_ifs at ha hb
  · cases ha
    cases hb
    exact ⟨rfl, rfl, rfl, fun _ => ⟨⟨rfl, rfl⟩, fun _ _ h => (by cases h), fun _ _ h => (by cases h)⟩⟩
  · obtain ⟨m, hm, ha⟩ := ebind_ok.mp ha
    obtain ⟨lo, hlo, ha⟩ := ebind_ok.mp ha
    obtain ⟨hi, hhi, ha⟩ := ebind_ok.mp ha
    obtain ⟨m', hm', hb⟩ := ebind_ok.mp hb
    obtain ⟨lo', hlo', hb⟩ := ebind_ok.mp hb
    obtain ⟨hi', hhi', hb⟩ := ebind_ok.mp hb
    rw [hm] at hm'
    cases hm'
    cases ha
    cases hb
    exact ⟨rfl, rfl, rfl, fun h => ⟨⟨quantileE_presence hlo hlo', quantileE_presence hhi hhi'⟩, fun a b ha hb => quantileE_le hlo' hlo (by linarith) hb ha,
      fun a b ha hb => quantileE_le hhi hhi' (by linarith) ha hb⟩⟩

/-! ## CODS -/

/-- what CODS reports besides the intervals -/
structure Spec.SamePoints (a b : Cods.BootOut) : Prop where
  ratio : a.table.ratio = b.table.ratio
  rates : a.table.rates = b.table.rates
  seasonal : a.table.seasonal = b.table.seasonal
  trend : a.table.trend = b.table.trend
  total : a.table.total = b.table.total
  residuals : a.table.residuals = b.table.residuals
  btRatio : a.table.btRatio = b.table.btRatio
  btRates : a.table.btRates = b.table.btRates
  cleaning : a.table.cleaningProb = b.table.cleaningProb
  degradation : a.degradation.1 = b.degradation.1
  loss : a.soilingLoss.1 = b.soilingLoss.1
  shift : a.shift = b.shift
  small : a.small = b.small
  weights : a.weights = b.weights
  rmse : a.rmse = b.rmse

/-- the intervals of `a` lie in those of `b` -/
structure Spec.NestedOut (a b : Cods.BootOut) : Prop where
  sr : ∀ i, Spec.NestedCells (cellAt a.table.srLow i, cellAt a.table.srHigh i) (cellAt b.table.srLow i, cellAt b.table.srHigh i)
  rates : ∀ i, Spec.NestedCells (cellAt a.table.ratesLow i, cellAt a.table.ratesHigh i)
    (cellAt b.table.ratesLow i, cellAt b.table.ratesHigh i)
  seasonal : ∀ i, Spec.NestedCells (cellAt a.table.seasonalLow i, cellAt a.table.seasonalHigh i)
    (cellAt b.table.seasonalLow i, cellAt b.table.seasonalHigh i)
  model : ∀ i, Spec.NestedCells (cellAt a.table.modelLow i, cellAt a.table.modelHigh i)
    (cellAt b.table.modelLow i, cellAt b.table.modelHigh i)
  degradation : Spec.NestedCells a.degradation.2 b.degradation.2
  loss : Spec.NestedCells a.soilingLoss.2 b.soilingLoss.2

namespace Cods

theorem nested_refl (c : Cell × Cell) : Spec.NestedCells c c :=
  ⟨⟨rfl, rfl⟩, fun a b h h' => by rw [h] at h'; cases h'; rfl, fun a b h h' => by rw [h] at h'; cases h'; rfl⟩

theorem quantile_presence (l : List ℚ) (p q : ℚ) : (quantile l p).isSome = (quantile l q).isSome := by
  rw [Bool.eq_iff_iff, quantile_isSome, quantile_isSome]

theorem rowQuantile_presence (n : Nat) (cols : List (List Cell)) (p q : ℚ) (i : Nat) :
    (cellAt (rowQuantile n cols p) i).isSome = (cellAt (rowQuantile n cols q) i).isSome := by
  by_cases hi : i < n
  · unfold rowQuantile
    rw [cellAt_range _ hi, cellAt_range _ hi]
    exact quantile_presence ..
  · unfold rowQuantile cellAt
    rw [List.getElem?_eq_none (by simp; omega), List.getElem?_eq_none (by simp; omega)]

theorem stage3_levels {e : BootEnv} {pi : List Cell} {c1 c2 : ℚ} {df : Decomp} {s : Stage2} {o1 o2 : BootOut}
    (h1 : stage3 e pi c1 df s = .ok o1) (h2 : stage3 e pi c2 df s = .ok o2) :
    Spec.SamePoints o1 o2 ∧ (c1 ≤ c2 → Spec.NestedOut o1 o2) := by
  obtain ⟨-, he1, -⟩ := stage3_ok h1
  obtain ⟨-, he2, -⟩ := stage3_ok h2
  have hk := stage3_kdfs h1
  have hc1 : ¬ (lowEdge c1 < 0 ∨ 1 < lowEdge c1 ∨ highEdge c1 < 0 ∨ 1 < highEdge c1) := by
    push Not
    exact he1
  have hc2 : ¬ (lowEdge c2 < 0 ∨ 1 < lowEdge c2 ∨ highEdge c2 < 0 ∨ 1 < highEdge c2) := by
    push Not
    exact he2
  unfold stage3 at h1 h2
  rw [if_neg hk, if_neg hc1] at h1
  rw [if_neg hk, if_neg hc2] at h2
  obtain ⟨w, hw, h1⟩ := bind_ok'.mp h1
  obtain ⟨w', hw', h2⟩ := bind_ok'.mp h2
  rw [hw] at hw'
  cases hw'
  simp only at h1 h2
  by_cases hall : (s.kdfs.map fun d => d.soilingLoss).all Option.isSome = true
  swap
  · rw [if_neg hall] at h1; cases h1
  rw [if_pos hall] at h1 h2
  obtain ⟨_, -, h1⟩ := bind_ok'.mp h1
  obtain ⟨_, -, h2⟩ := bind_ok'.mp h2
  cases h1
  cases h2
  refine ⟨⟨rfl, rfl, rfl, rfl, rfl, rfl, rfl, rfl, rfl, rfl, rfl, rfl, rfl, rfl, rfl⟩, fun h => ?_⟩
  have hl : lowEdge c2 ≤ lowEdge c1 := by unfold lowEdge; linarith
  have hh : highEdge c1 ≤ highEdge c2 := by unfold highEdge; linarith
  have key : ∀ cols i, Spec.NestedCells (cellAt (rowQuantile pi.length cols (lowEdge c1)) i, cellAt (rowQuantile pi.length cols (highEdge c1)) i)
      (cellAt (rowQuantile pi.length cols (lowEdge c2)) i, cellAt (rowQuantile pi.length cols (highEdge c2)) i) := fun cols i =>
    ⟨⟨rowQuantile_presence .., rowQuantile_presence ..⟩, fun a b ha hb => rowQuantile_ordered he2.1 hl he1.2.1 i b a hb ha,
     fun a b ha hb => rowQuantile_ordered he1.2.2.1 hh he2.2.2.2 i a b ha hb⟩
  refine ⟨key _, key _, key _, key _, ⟨⟨quantile_presence .., quantile_presence ..⟩, fun a b ha hb => quantile_mono hb ha he2.1 hl he1.2.1,
    fun a b ha hb => quantile_mono ha hb he1.2.2.1 hh he2.2.2.2⟩, ⟨⟨?_, ?_⟩, fun a b ha hb => ?_, fun a b ha hb => ?_⟩⟩
  · simp only [lossQuantile, npQuantile, hall, if_true]
    exact quantile_presence ..
  · simp only [lossQuantile, npQuantile, hall, if_true]
    exact quantile_presence ..
  · simp only [lossQuantile, npQuantile, hall, if_true] at ha hb
    exact quantile_mono hb ha he2.1 hl he1.2.1
  · simp only [lossQuantile, npQuantile, hall, if_true] at ha hb
    exact quantile_mono ha hb he1.2.2.1 hh he2.2.2.2

theorem stage3_exists {e : BootEnv} {pi : List Cell} {c1 : ℚ} (c2 : ℚ) {df : Decomp} {s : Stage2} {o1 : BootOut}
    (h1 : stage3 e pi c1 df s = .ok o1) : o1.small = false ∧ ((∃ o, stage3 e pi c2 df s = .ok o) ↔ |c2| ≤ 100) := by
  obtain ⟨-, he1, -⟩ := stage3_ok h1
  have hk := stage3_kdfs h1
  have hc1 : ¬ (lowEdge c1 < 0 ∨ 1 < lowEdge c1 ∨ highEdge c1 < 0 ∨ 1 < highEdge c1) := by
    push Not
    exact he1
  unfold stage3 at h1
  rw [if_neg hk, if_neg hc1] at h1
  obtain ⟨w, hw, h1⟩ := bind_ok'.mp h1
  simp only at h1
  by_cases hall : (s.kdfs.map fun d => d.soilingLoss).all Option.isSome = true
  swap
  · rw [if_neg hall] at h1; cases h1
  rw [if_pos hall] at h1
  obtain ⟨x, hx, h1⟩ := bind_ok'.mp h1
  cases h1
  refine ⟨rfl, ?_⟩
  rw [abs_le]
  constructor
  · rintro ⟨o, h⟩
    obtain ⟨-, he2, -⟩ := stage3_ok h
    unfold lowEdge highEdge at he2
    exact ⟨by linarith [he2.1, he2.2.1], by linarith [he2.2.2.2]⟩
  · rintro ⟨h0, h1⟩
    have hc2 : ¬ (lowEdge c2 < 0 ∨ 1 < lowEdge c2 ∨ highEdge c2 < 0 ∨ 1 < highEdge c2) := by
      push Not
      unfold lowEdge highEdge
      exact ⟨by linarith, by linarith, by linarith, by linarith⟩
    unfold stage3
    rw [if_neg hk, if_neg hc2]
    rw [hw]
    simp only [bind, Except.bind, hall, if_true, hx]
    exact ⟨_, rfl⟩

/-- **C125 (CODS).** With the same fits and random numbers, the level changes nothing but the intervals, and a higher level widens
all of them. -/
theorem C125_cods {e : BootEnv} {alts : Alternatives} {reps : Nat} {c1 c2 : ℚ} {day0 : Int} {pi : List Cell} {o1 o2 : BootOut}
    (h1 : runBootstrap e alts reps c1 day0 pi = .ok o1) (h2 : runBootstrap e alts reps c2 day0 pi = .ok o2) :
    Spec.SamePoints o1 o2 ∧ (c1 ≤ c2 → Spec.NestedOut o1 o2) := by
  unfold runBootstrap at h1 h2
  obtain ⟨cs, hcs, h1⟩ := bind_ok'.mp h1
  obtain ⟨cs', hcs', h2⟩ := bind_ok'.mp h2
  rw [hcs] at hcs'
  cases hcs'
  obtain ⟨s1, hs1, h1⟩ := bind_ok'.mp h1
  obtain ⟨s1', hs1', h2⟩ := bind_ok'.mp h2
  rw [hs1] at hs1'
  cases hs1'
  obtain ⟨w, hw, h1⟩ := bind_ok'.mp h1
  obtain ⟨w', hw', h2⟩ := bind_ok'.mp h2
  rw [hw] at hw'
  cases hw'
  by_cases hz : nrModels / 2 < (s1.fits.map adfZero).count true
  · rw [if_pos hz] at h1
    cases h1
  rw [if_neg hz] at h1 h2
  obtain ⟨m, hm, h1⟩ := bind_ok'.mp h1
  obtain ⟨m', hm', h2⟩ := bind_ok'.mp h2
  rw [hm] at hm'
  cases hm'
  obtain ⟨best, hb, h1⟩ := bind_ok'.mp h1
  obtain ⟨best', hb', h2⟩ := bind_ok'.mp h2
  rw [hb] at hb'
  cases hb'
  split_ifs at h1 h2
  · rw [h1] at h2
    cases h2
    exact ⟨⟨rfl, rfl, rfl, rfl, rfl, rfl, rfl, rfl, rfl, rfl, rfl, rfl, rfl, rfl, rfl⟩,
      fun _ => ⟨fun _ => nested_refl _, fun _ => nested_refl _, fun _ => nested_refl _, fun _ => nested_refl _, nested_refl _, nested_refl _⟩⟩
  · obtain ⟨scs, hscs, h1⟩ := bind_ok'.mp h1
    obtain ⟨scs', hscs', h2⟩ := bind_ok'.mp h2
    rw [hscs] at hscs'
    cases hscs'
    simp only at h1 h2
    obtain ⟨s2, hs2, h1⟩ := bind_ok'.mp h1
    obtain ⟨s2', hs2', h2⟩ := bind_ok'.mp h2
    rw [hs2] at hs2'
    cases hs2'
    cases hl : s1.fits.getLast? with
    | none => rw [hl] at h1; cases h1
    | some df =>
      rw [hl] at h1 h2
      exact stage3_levels h1 h2

/-- if a bootstrap with one level has a result, exactly the levels of absolute value at most 100 % have one; but if the soiling
signal is small, the level is ignored: **any** level (even an invalid one) gives the same result -/
theorem C125_cods_levels {e : BootEnv} {alts : Alternatives} {reps : Nat} {c1 : ℚ} (c2 : ℚ) {day0 : Int} {pi : List Cell} {o1 : BootOut}
    (h1 : runBootstrap e alts reps c1 day0 pi = .ok o1) :
    (o1.small = false → ((∃ o2, runBootstrap e alts reps c2 day0 pi = .ok o2) ↔ |c2| ≤ 100)) ∧
    (o1.small = true → runBootstrap e alts reps c2 day0 pi = .ok o1) := by
  unfold runBootstrap at h1 ⊢
  obtain ⟨cs, hcs, h1⟩ := bind_ok'.mp h1
  obtain ⟨s1, hs1, h1⟩ := bind_ok'.mp h1
  obtain ⟨w, hw, h1⟩ := bind_ok'.mp h1
  by_cases hz : nrModels / 2 < (s1.fits.map adfZero).count true
  · rw [if_pos hz] at h1
    cases h1
  rw [if_neg hz] at h1
  obtain ⟨m, hm, h1⟩ := bind_ok'.mp h1
  obtain ⟨best, hb, h1⟩ := bind_ok'.mp h1
  by_cases hsm : nrModels / 2 < (s1.fits.map fun d => d.small).count true
  · rw [if_pos hsm] at h1
    constructor
    · intro hf
      unfold smallResult at h1
      obtain ⟨y, -, h1⟩ := bind_ok'.mp h1
      cases hc : cellMean (best.ratio.map fun c => c.map fun v => 1 - v) with
      | none => rw [hc] at h1; cases h1
      | some m =>
        rw [hc] at h1
        cases h1
        cases hf
    · intro _
      refine bind_ok'.mpr ⟨cs, hcs, bind_ok'.mpr ⟨s1, hs1, bind_ok'.mpr ⟨w, hw, ?_⟩⟩⟩
      rw [if_neg hz]
      refine bind_ok'.mpr ⟨m, hm, bind_ok'.mpr ⟨best, hb, ?_⟩⟩
      rw [if_pos hsm]
      exact h1
  rw [if_neg hsm] at h1
  by_cases hem : s1.samples = []
  · rw [if_pos hem] at h1
    cases h1
  rw [if_neg hem] at h1
  obtain ⟨scs, hscs, h1⟩ := bind_ok'.mp h1
  simp only at h1
  obtain ⟨s2, hs2, h1⟩ := bind_ok'.mp h1
  cases hl : s1.fits.getLast? with
  | none => rw [hl] at h1; cases h1
  | some df =>
    rw [hl] at h1
    obtain ⟨hsmall, hst⟩ := stage3_exists c2 h1
    refine ⟨fun _ => ?_, fun h => by rw [hsmall] at h; cases h⟩
    rw [← hst]
    constructor
    · rintro ⟨o, h⟩
      obtain ⟨cs', hcs', h⟩ := bind_ok'.mp h
      rw [hcs] at hcs'
      cases hcs'
      obtain ⟨s1', hs1', h⟩ := bind_ok'.mp h
      rw [hs1] at hs1'
      cases hs1'
      obtain ⟨w', hw', h⟩ := bind_ok'.mp h
      rw [hw] at hw'
      cases hw'
      rw [if_neg hz] at h
      obtain ⟨m', hm', h⟩ := bind_ok'.mp h
      obtain ⟨best', hb', h⟩ := bind_ok'.mp h
      rw [if_neg hsm, if_neg hem] at h
      obtain ⟨scs', hscs', h⟩ := bind_ok'.mp h
      rw [hscs] at hscs'
      cases hscs'
      simp only at h
      obtain ⟨s2', hs2', h⟩ := bind_ok'.mp h
      rw [hs2] at hs2'
      cases hs2'
      rw [hl] at h
      exact ⟨o, h⟩
    · rintro ⟨o, h⟩
      refine ⟨o, bind_ok'.mpr ⟨cs, hcs, bind_ok'.mpr ⟨s1, hs1, bind_ok'.mpr ⟨w, hw, ?_⟩⟩⟩⟩
      rw [if_neg hz]
      refine bind_ok'.mpr ⟨m, hm, bind_ok'.mpr ⟨best, hb, ?_⟩⟩
      rw [if_neg hsm, if_neg hem]
      refine bind_ok'.mpr ⟨scs, hscs, bind_ok'.mpr ⟨s2, hs2, ?_⟩⟩
      rw [hl]
      exact h

/-- the same for the tuple `soiling_cods` returns; its soiling interval has the upper limit first -/
theorem C125_soiling_cods {e : List Cell → BootEnv} {alts : Alternatives} {reps : Nat} {c1 c2 : ℚ} {daily : Bool} {day0 : Int}
    {pm : List Cell} {r1 r2 : CodsResult} (h1 : soilingCods e alts reps c1 daily day0 pm = .ok r1)
    (h2 : soilingCods e alts reps c2 daily day0 pm = .ok r2) :
    r1.sr = r2.sr ∧ r1.rd = r2.rd ∧
      (c1 ≤ c2 → Spec.NestedCells r1.rdCI r2.rdCI ∧ Spec.NestedCells (r1.srCI.2, r1.srCI.1) (r2.srCI.2, r2.srCI.1)) := by
  unfold soilingCods at h1 h2
  obtain ⟨s, hs, h1⟩ := bind_ok'.mp h1
  obtain ⟨s', hs', h2⟩ := bind_ok'.mp h2
  rw [hs] at hs'
  cases hs'
  obtain ⟨o1, ho1, h1⟩ := bind_ok'.mp h1
  obtain ⟨o2, ho2, h2⟩ := bind_ok'.mp h2
  cases h1
  cases h2
  obtain ⟨hp, hn⟩ := C125_cods ho1 ho2
  refine ⟨by unfold codsResult; simp only; rw [hp.loss], hp.degradation, fun h => ⟨(hn h).degradation, ?_⟩⟩
  have hl := (hn h).loss
  unfold codsResult
  refine ⟨⟨by simpa using hl.1.2, by simpa using hl.1.1⟩, ?_, ?_⟩
  · intro a b ha hb
    simp only [Option.map_eq_some_iff] at ha hb
    obtain ⟨x, hx, rfl⟩ := ha
    obtain ⟨y, hy, rfl⟩ := hb
    linarith [hl.2.2 x y hx hy]
  · intro a b ha hb
    simp only [Option.map_eq_some_iff] at ha hb
    obtain ⟨x, hx, rfl⟩ := ha
    obtain ⟨y, hy, rfl⟩ := hb
    linarith [hl.2.1 x y hx hy]

-- two levels of the bootstrap; with a small signal the level 200 % gives a result
example : (runBootstrap (exBoot (fun _ => false) false) {} 10 50 19000 [some 1, some 1]).map (fun o => (o.small, o.soilingLoss)) =
      .ok (false, 23 / 2, some (31 / 4), some (61 / 4)) ∧
    (runBootstrap (exBoot (fun _ => false) false) {} 10 90 19000 [some 1, some 1]).map (fun o => (o.small, o.soilingLoss)) =
      .ok (false, 23 / 2, some (19 / 4), some (73 / 4)) ∧
    (runBootstrap (exBoot (fun _ => false) true) {} 10 200 19000 [some 1, some 1]).map (fun o => (o.small, o.degradation)) =
      .ok (true, -1, some (-2), some 0) := by decide +kernel

end Cods

/-! ## examples -/

example : (yoy noFreq false 95 68 .simple 30 (fun l => [l, l.take 2, l.drop 1]) [] exampleYoY).toOption.map
      (fun r => (r.ci, r.exceedance)) = some (some (-18292 / 183, -5831 / 183), some (-36595 / 366)) ∧
    (yoy noFreq false 50 90 .simple 30 (fun l => [l, l.take 2, l.drop 1]) [] exampleYoY).toOption.map
      (fun r => (r.ci, r.exceedance)) = some (some (-36595 / 366, -1805 / 183), some (-18275 / 183)) := by decide +kernel

example : ((degradationOlsFull (fun _ => exScatterRoot) [(1, 1), (1, -1), (-1, 1), (-1, -1)] 50 exScatter).toOption.bind id).map
      (fun r => r.2) = some (-8175 / 3224, 675 / 608) ∧
    ((degradationOlsFull (fun _ => exScatterRoot) [(1, 1), (1, -1), (-1, 1), (-1, -1)] 68 exScatter).toOption.bind id).map
      (fun r => r.2) = some (-165 / 62, 45 / 38) := by decide +kernel

example : (soilingSrr id (fun _ => 1 / 10) SrrEx.opts SrrEx.res .randomClean 50 90
        [SrrEx.draw0, ⟨fun _ => 1, fun _ => 1, fun _ => 1⟩] SrrEx.pm SrrEx.insol none).toOption.map
      (fun r => (r.low, r.high, r.exceedance)) = some (283 / 400, 337 / 400, 31 / 40) ∧
    (soilingSrr id (fun _ => 1 / 10) SrrEx.opts SrrEx.res .randomClean 90 50
        [SrrEx.draw0, ⟨fun _ => 1, fun _ => 1, fun _ => 1⟩] SrrEx.pm SrrEx.insol none).toOption.map
      (fun r => (r.low, r.high, r.exceedance)) = some (59 / 80, 13 / 16, 143 / 200) := by decide +kernel

/-- annual and monthly tables at two levels -/
example : (annualSoilingRatios
      [[(363 * dayNs, some 1), (364 * dayNs, some (1/2))], [(363 * dayNs, some 1), (364 * dayNs, some 1)]]
      [(364 * dayNs, some 2)] 50) = .ok [⟨1970, some (3/4), some (5/8), some (7/8)⟩] ∧
    (annualSoilingRatios
      [[(363 * dayNs, some 1), (364 * dayNs, some (1/2))], [(363 * dayNs, some 1), (364 * dayNs, some 1)]]
      [(364 * dayNs, some 2)] 80) = .ok [⟨1970, some (3/4), some (11/20), some (19/20)⟩] := by decide +kernel

example : (monthlySoilingRates (fun _ i _ => i) 3 50 10 100
      [⟨29 * dayNs, 33 * dayNs, -1/100, -12/1000, -8/1000, 5, true⟩,
       ⟨40 * dayNs, 42 * dayNs, -2/100, -21/1000, -19/1000, 3, true⟩]).toOption.map (fun r => r.take 2) =
    some [⟨1, some (-12/1000), some (-12/1000), some (-12/1000), 1⟩,
      ⟨2, some (-31/2000), some (-19/1000), some (-12/1000), 2⟩] := by decide +kernel

end Verif
