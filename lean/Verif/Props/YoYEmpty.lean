import Verif.Props.YearOnYear

/-! # Property C151 (rows without a value in year-on-year degradation) -/

namespace Verif

open Spec

variable {inferFreq : List Int → Option Int} {recenter : Bool} {exceed conf : ℚ} {method : Uncertainty}
  {block : Nat} {choose : List ℚ → List (List ℚ)} {draws : List (List Nat)} {s empty : Series} {r r' : YoYResult}

/-- **C151 (nothing new).** Adding rows without a value to a record adds no year-on-year value and
changes none: every value reported with them is reported without them, at the same time. -/
theorem C151_no_new (he : ∀ q ∈ empty, q.2 = none) (hd : ((s ++ empty).map Prod.fst).Nodup)
    (h : yoy inferFreq recenter exceed conf method block choose draws s = .ok r)
    (h' : yoy inferFreq recenter exceed conf method block choose draws (s ++ empty) = .ok r')
    (hn : r'.renorm = r.renorm) {t : Int} {v : ℚ} (hv : (t, v) ∈ r'.values) : (t, v) ∈ r.values := by
  have hds : (s.map Prod.fst).Nodup := by rw [List.map_append] at hd; exact hd.of_append_left
  have hin : ∀ {x : Int} {e : ℚ}, (x, some e) ∈ s ++ empty → (x, some e) ∈ s := by
    intro x e hx
    rcases List.mem_append.mp hx with hx | hx
    · exact hx
    · exact absurd (he _ hx) (by simp)
  obtain ⟨e, f, u, k, hk, hk0, h1, h2, h3, h4⟩ := (C21_pairs h' hd t v).mp hv
  refine (C21_pairs h hds t v).mpr ⟨e, f, u, k, hn ▸ hk, hk0, hin h1, hin h2, ?_, h4⟩
  obtain ⟨-, a2, a3, a4⟩ := h3
  refine ⟨List.mem_map.mpr ⟨_, hin h2, rfl⟩, a2, a3, fun w hw => a4 w ?_⟩
  rw [List.map_append]
  exact List.mem_append_left _ hw

/-- **C151 (hidden partners).** A year-on-year value is lost exactly when one of the added rows is a later
partner: its anniversary is not after the sample and comes after that of the partner with a value. -/
theorem C151_hidden (he : ∀ q ∈ empty, q.2 = none) (hd : ((s ++ empty).map Prod.fst).Nodup)
    (h : yoy inferFreq recenter exceed conf method block choose draws s = .ok r)
    (h' : yoy inferFreq recenter exceed conf method block choose draws (s ++ empty) = .ok r')
    (hn : r'.renorm = r.renorm) {t : Int} {v : ℚ} (hv : (t, v) ∈ r.values) :
    (∀ v', (t, v') ∉ r'.values) ↔ ∃ u w, LatestAnniversary (s.map Prod.fst) t u ∧ w ∈ empty.map Prod.fst ∧
      addYears 1 w ≤ t ∧ (addYears 1 u < addYears 1 w ∨ (addYears 1 u = addYears 1 w ∧ u < w)) := by
  have hds : (s.map Prod.fst).Nodup := by rw [List.map_append] at hd; exact hd.of_append_left
  constructor
  · intro hv'
    obtain ⟨e, f, u, k, hk, hk0, h1, h2, h3, h4⟩ := (C21_pairs h hds t v).mp hv
    by_contra hcon
    push Not at hcon
    apply hv' v
    refine (C21_pairs h' hd t v).mpr
      ⟨e, f, u, k, hn.symm ▸ hk, hk0, List.mem_append_left _ h1, List.mem_append_left _ h2, ?_, h4⟩
    refine ⟨by rw [List.map_append]; exact List.mem_append_left _ h3.mem, h3.notAfter, h3.within, fun w hw hwt => ?_⟩
    rw [List.map_append] at hw
    rcases List.mem_append.mp hw with hw | hw
    · exact h3.latest w hw hwt
    · obtain ⟨c1, c2⟩ := hcon u w h3 hw hwt
      by_cases hc : addYears 1 u = addYears 1 w
      · exact .inr ⟨hc.symm, c2 hc⟩
      · exact .inl (by omega)
  · rintro ⟨u, w, h3, hw, hwt, hlt⟩ v' hv'
    obtain ⟨-, f, u', -, -, -, -, h2, h3', -⟩ := (C21_pairs h' hd t v').mp hv'
    have hu' : u' ∈ s.map Prod.fst := by
      rcases List.mem_append.mp h2 with hx | hx
      · exact List.mem_map.mpr ⟨_, hx, rfl⟩
      · exact absurd (he _ hx) (by simp)
    have c1 := h3'.latest w (by rw [List.map_append]; exact List.mem_append_right _ hw) hwt
    have c2 := h3.latest u' hu' h3'.notAfter
    omega

/-- readings a year and three days apart -/
def yearlyReadings : Series :=
  [(17532 * dayNs, some 1), (17900 * dayNs, some (96/100)), (18268 * dayNs, some (95/100)), (18637 * dayNs, some (93/100))]

/-- an empty row on 3 January 2018, and one far from all anniversaries -/
def emptyRows : Series := [(17534 * dayNs, none), (18000 * dayNs, none)]

example : (∀ q ∈ emptyRows, q.2 = none) ∧ ((yearlyReadings ++ emptyRows).map Prod.fst).Nodup ∧
    (yoy noFreq false 95 68 .none 30 (fun l => [l]) [] yearlyReadings).toOption.map YoYResult.renorm =
      (yoy noFreq false 95 68 .none 30 (fun l => [l]) [] (yearlyReadings ++ emptyRows)).toOption.map YoYResult.renorm := by
  decide +kernel

/-- **C151, refuted: empty rows count.** The same readings give another rate when a row without a value
is added (-1.98 and -1.49 percent a year): the row is taken as the partner of a year before and a pair is lost. -/
theorem C151_rate_refuted :
    (yoy noFreq false 95 68 .none 30 (fun l => [l]) [] yearlyReadings).toOption.map (fun r => (r.rd, r.values.length)) =
      some (-730 / 369, 3) ∧
    (yoy noFreq false 95 68 .none 30 (fun l => [l]) [] (yearlyReadings ++ emptyRows)).toOption.map
      (fun r => (r.rd, r.values.length)) = some (-403325 / 271584, 2) := by
  decide +kernel

end Verif
