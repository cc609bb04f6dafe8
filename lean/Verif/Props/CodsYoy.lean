import Verif.Model.CodsYoy
import Verif.Props.CodsOrigin
import Verif.Props.YearOnYear
import Verif.Props.ChainsRecover
import Verif.Props.ChainsUnits

/-! # Property C133 (the degradation rate of CODS) -/

namespace Verif.Cods

open Verif Verif.Spec

theorem dailySeries_keys (day0 : Int) (x : List Cell) :
    (dailySeries day0 x).map Prod.fst = (List.range x.length).map fun i : Nat => (day0 + (i : Int)) * dayNs := by
  simp [dailySeries]

theorem dailySeries_nodup (day0 : Int) (x : List Cell) : ((dailySeries day0 x).map Prod.fst).Nodup := by
  rw [dailySeries_keys]
  refine List.Nodup.map ?_ List.nodup_range
  intro i j h
  have hp := dayNs_pos
  have := Int.eq_of_mul_eq_mul_right (by omega) h
  omega

theorem lt_of_cellAt {x : List Cell} {i : Nat} {v : ℚ} (h : cellAt x i = some v) : i < x.length := by
  by_contra hn
  unfold cellAt at h
  rw [List.getElem?_eq_none (by omega)] at h
  cases h

theorem mem_dailySeries {day0 : Int} {x : List Cell} {t : Int} {v : ℚ} :
    (t, some v) ∈ dailySeries day0 x ↔ ∃ i : Nat, t = (day0 + (i : Int)) * dayNs ∧ cellAt x i = some v := by
  unfold dailySeries
  rw [List.mem_map]
  constructor
  · rintro ⟨i, -, h⟩
    simp only [Prod.mk.injEq] at h
    exact ⟨i, h.1.symm, h.2⟩
  · rintro ⟨i, rfl, h⟩
    exact ⟨i, List.mem_range.mpr (lt_of_cellAt h), by rw [h]⟩

/-- midnight of day `i` of a daily record -/
def Spec.midnight (day0 : Int) (i : Nat) : Int := (day0 + (i : Int)) * dayNs

/-- day `j` is the last one whose anniversary is not after day `i` -/
def Spec.aYearBefore (day0 : Int) (i j : Nat) : Prop :=
  addYears 1 (Spec.midnight day0 j) ≤ Spec.midnight day0 i ∧ Spec.midnight day0 i < addYears 1 (Spec.midnight day0 (j + 1))

theorem anniversary (day0 : Int) (j : Nat) : ∃ n : Nat, (n = j + 365 ∨ n = j + 366) ∧
    addYears 1 (Spec.midnight day0 j) = Spec.midnight day0 n := by
  unfold Spec.midnight
  rcases addYears_one ((day0 + (j : Int)) * dayNs) with e | e <;> rw [e]
  · exact ⟨j + 365, .inl rfl, by push_cast; ring⟩
  · exact ⟨j + 366, .inr rfl, by push_cast; ring⟩

theorem midnight_le {day0 : Int} {i j : Nat} : Spec.midnight day0 i ≤ Spec.midnight day0 j ↔ i ≤ j := by
  unfold Spec.midnight
  have hp := dayNs_pos
  rw [mul_le_mul_iff_left₀ hp]
  omega

theorem midnight_lt {day0 : Int} {i j : Nat} : Spec.midnight day0 i < Spec.midnight day0 j ↔ i < j := by
  rw [lt_iff_not_ge, midnight_le, not_le]

theorem midnight_inj {day0 : Int} {i j : Nat} : Spec.midnight day0 i = Spec.midnight day0 j ↔ i = j := by
  rw [le_antisymm_iff, midnight_le, midnight_le]; omega

/-- the day a year before is 365 or 366 days earlier -/
theorem aYearBefore_days {day0 : Int} {i j : Nat} (h : Spec.aYearBefore day0 i j) : i = j + 365 ∨ i = j + 366 := by
  obtain ⟨n, hn, e⟩ := anniversary day0 j
  obtain ⟨m, hm, e'⟩ := anniversary day0 (j + 1)
  obtain ⟨h1, h2⟩ := h
  rw [e, midnight_le] at h1
  rw [e', midnight_lt] at h2
  omega

theorem anniversary_mono {day0 : Int} : ∀ {j j' : Nat}, j ≤ j' →
    addYears 1 (Spec.midnight day0 j) ≤ addYears 1 (Spec.midnight day0 j') := by
  intro j j' h
  induction j' with
  | zero => rw [show j = 0 by omega]
  | succ m ih =>
    rcases Nat.lt_or_ge m j with hm | hm
    · rw [show j = m + 1 by omega]
    · refine le_trans (ih hm) ?_
      obtain ⟨a, ha, ea⟩ := anniversary day0 m
      obtain ⟨b, hb, eb⟩ := anniversary day0 (m + 1)
      rw [ea, eb, midnight_le]
      omega

theorem mem_days {day0 : Int} {x : List Cell} {t : Int} :
    t ∈ (dailySeries day0 x).map Prod.fst ↔ ∃ i < x.length, t = Spec.midnight day0 i := by
  rw [dailySeries_keys, List.mem_map]
  simp only [List.mem_range, Spec.midnight]
  constructor
  · rintro ⟨i, hi, rfl⟩; exact ⟨i, hi, rfl⟩
  · rintro ⟨i, hi, rfl⟩; exact ⟨i, hi, rfl⟩

theorem daily_partner {day0 : Int} {x : List Cell} {i j : Nat} (hi : i < x.length) :
    LatestAnniversary ((dailySeries day0 x).map Prod.fst) (Spec.midnight day0 i) (Spec.midnight day0 j) ↔
      Spec.aYearBefore day0 i j := by
  constructor
  · intro h
    refine ⟨h.notAfter, ?_⟩
    by_contra hc
    have hji : j + 365 ≤ i := by
      obtain ⟨n, hn, e⟩ := anniversary day0 j
      have := h.notAfter
      rw [e, midnight_le] at this
      omega
    have hm := anniversary_mono (day0 := day0) (show j ≤ j + 1 by omega)
    rcases h.latest _ (mem_days.mpr ⟨j + 1, by omega, rfl⟩) (not_lt.mp hc) with h | ⟨-, h⟩
    · omega
    · rw [midnight_le] at h; omega
  · intro h
    have hd := aYearBefore_days h
    refine ⟨mem_days.mpr ⟨j, by omega, rfl⟩, h.1, ?_, ?_⟩
    · obtain ⟨n, hn, e⟩ := anniversary day0 j
      have hp := dayNs_pos
      rw [e]
      unfold Spec.midnight
      have : (day0 + (i : Int)) * dayNs ≤ (day0 + (n : Int) + 1) * dayNs := mul_le_mul_of_nonneg_right (by omega) hp.le
      nlinarith
    · intro w hw hle
      obtain ⟨m, -, rfl⟩ := mem_days.mp hw
      have hmj : m ≤ j := by
        by_contra hc
        have := anniversary_mono (day0 := day0) (show j + 1 ≤ m by omega)
        have := h.2
        omega
      have := anniversary_mono (day0 := day0) hmj
      rcases lt_or_eq_of_le this with h | h
      · exact .inl h
      · exact .inr ⟨h, midnight_le.mpr hmj⟩

/-- the change of a series from day `j` to day `i`, in percent of a reference level per 365 days -/
def Spec.yearlyChange (x : List Cell) (level : ℚ) (i j : Nat) : Cell :=
  match cellAt x i, cellAt x j with
  | some a, some b => some (100 * (a - b) / level / (((i : ℚ) - j) / 365))
  | _, _ => none

/-- the rate is the median of the changes from the day a year before, one for each day that has a value then and now -/
def Spec.IsYearOnYear (day0 : Int) (x : List Cell) (level rate : ℚ) : Prop :=
  ∃ changes : List (Nat × ℚ), (changes.map Prod.fst).Nodup ∧ IsMedian (changes.map Prod.snd) rate ∧
    ∀ i v, (i, v) ∈ changes ↔ ∃ j, Spec.aYearBefore day0 i j ∧ Spec.yearlyChange x level i j = some v

theorem mem_midnight {day0 : Int} {x : List Cell} {i : Nat} {v : ℚ} :
    (Spec.midnight day0 i, some v) ∈ dailySeries day0 x ↔ cellAt x i = some v := by
  rw [mem_dailySeries]
  constructor
  · rintro ⟨j, h, hj⟩
    rwa [midnight_inj.mp h]
  · exact fun h => ⟨i, rfl, h⟩

theorem yearlyChange_some {x : List Cell} {k : ℚ} {i j : Nat} {v : ℚ} :
    Spec.yearlyChange x k i j = some v ↔ ∃ a b, cellAt x i = some a ∧ cellAt x j = some b ∧
      v = 100 * (a - b) / k / (((i : ℚ) - j) / 365) := by
  unfold Spec.yearlyChange
  cases cellAt x i with
  | none => simp
  | some a =>
    cases cellAt x j with
    | none => simp
    | some b => simp [eq_comm]

theorem values_nodup {freq : List Int → Option Int} {s : Series} {r : YoYResult}
    (h : yoy freq true 95 (341 / 5) .none 30 (fun _ => []) [] s = .ok r) (hd : (s.map Prod.fst).Nodup) :
    (r.values.map Prod.fst).Nodup := by
  obtain ⟨c, hc, -, -, -, hv⟩ := yoy_ok h
  obtain ⟨-, hs, ht, -, -⟩ := yoyCore_ok hc
  have hk : (c.table.map YoYRow.dt).Nodup := by
    rw [ht, yoyTable_dt, hs, renormalize_keys]
    exact ((sortIndex_perm s).map Prod.fst).nodup_iff.mpr hd
  rw [hv]
  refine List.Nodup.sublist ?_ hk
  generalize c.table = l
  clear hc hs ht hk hv
  induction l with
  | nil => exact List.Sublist.slnil
  | cons a l ih =>
    cases ha : a.yoy with
    | none => simp only [List.filterMap_cons, ha, Option.map_none, List.map_cons]; exact ih.cons _
    | some w => simp only [List.filterMap_cons, ha, Option.map_some, List.map_cons]; exact ih.cons_cons _

theorem yearOnYearRate_ok {freq : List Int → Option Int} {day0 : Int} {x : List Cell} {d : ℚ}
    (h : yearOnYearRate freq day0 x = .ok d) :
    ∃ k : ℚ, k ≠ 0 ∧ yoyRenorm true (sortIndex (dailySeries day0 x)) = some k ∧ Spec.IsYearOnYear day0 x k d := by
  unfold yearOnYearRate at h
  obtain ⟨r, hr, rfl⟩ := map_ok.mp h
  have hd := dailySeries_nodup day0 x
  have hm := C22_median hr
  have hne : r.values ≠ [] := by
    intro hc
    have := isMedian_iff.mp hm
    rw [hc] at this
    cases this
  obtain ⟨⟨t0, v0⟩, hp⟩ := List.exists_mem_of_ne_nil _ hne
  obtain ⟨-, -, -, k, hk, hk0, -⟩ := (C21_pairs hr hd t0 v0).mp hp
  obtain ⟨c, hc, -, hrn, -, -⟩ := yoy_ok hr
  obtain ⟨h1, -⟩ := yoyCore_ok hc
  have hform : ∀ (i j : Nat) (a b : ℚ), Spec.aYearBefore day0 i j →
      100 * (a / k - b / k) / (((Spec.midnight day0 i : Int) - (Spec.midnight day0 j : Int) : ℚ) / (365 * dayNs)) =
      100 * (a - b) / k / (((i : ℚ) - j) / 365) := by
    intro i j a b hy
    have hD : (dayNs : ℚ) ≠ 0 := by have := dayNs_pos; exact_mod_cast this.ne'
    have hij : (i : ℚ) - j ≠ 0 := by
      rcases aYearBefore_days hy with rfl | rfl <;> push_cast <;> intro hc <;> linarith
    unfold Spec.midnight
    push_cast
    have : ((day0 : ℚ) + i) * dayNs - (day0 + j) * dayNs = (i - j) * dayNs := by ring
    rw [this]
    field_simp
  have hval : ∀ (i : Nat) (v : ℚ), (Spec.midnight day0 i, v) ∈ r.values ↔
      ∃ j, Spec.aYearBefore day0 i j ∧ Spec.yearlyChange x k i j = some v := by
    intro i v
    rw [C21_pairs hr hd]
    simp only [yearlyChange_some]
    constructor
    · rintro ⟨e, f, u, k', hk', -, he, hf, hl, rfl⟩
      rw [hk, Option.some.injEq] at hk'
      subst hk'
      have hi := mem_midnight.mp he
      obtain ⟨j, rfl, hj⟩ := mem_dailySeries.mp hf
      have hy := (daily_partner (lt_of_cellAt hi)).mp hl
      exact ⟨j, hy, e, f, hi, hj, hform i j e f hy⟩
    · rintro ⟨j, hy, a, b, ha, hb, rfl⟩
      exact ⟨a, b, _, k, hk, hk0, mem_midnight.mpr ha, mem_midnight.mpr hb, (daily_partner (lt_of_cellAt ha)).mpr hy,
        (hform i j a b hy).symm⟩
  have hday : ∀ p ∈ r.values, ∃ i : Nat, p.1 = Spec.midnight day0 i := by
    rintro ⟨t, v⟩ hv
    obtain ⟨e, f, u, k', -, -, he, -⟩ := (C21_pairs hr hd t v).mp hv
    obtain ⟨i, rfl, -⟩ := mem_dailySeries.mp he
    exact ⟨i, rfl⟩
  refine ⟨k, hk0, by rw [← h1, ← hrn, hk], r.values.map fun p => ((p.1 / dayNs - day0).toNat, p.2), ?_, ?_, ?_⟩
  · have := values_nodup hr hd
    rw [List.map_map]
    rw [show (Prod.fst ∘ fun p : Int × ℚ => ((p.1 / dayNs - day0).toNat, p.2)) =
      (fun t : Int => (t / dayNs - day0).toNat) ∘ Prod.fst from rfl, ← List.map_map]
    refine List.Nodup.map_on ?_ this
    intro s hs t ht hst
    obtain ⟨p, hp, rfl⟩ := List.mem_map.mp hs
    obtain ⟨q, hq, rfl⟩ := List.mem_map.mp ht
    obtain ⟨i, hi⟩ := hday p hp
    obtain ⟨j, hj⟩ := hday q hq
    rw [hi, hj] at hst ⊢
    unfold Spec.midnight at hst
    rw [Int.mul_ediv_cancel _ dayNs_pos.ne', Int.mul_ediv_cancel _ dayNs_pos.ne'] at hst
    rw [show i = j by omega]
  · rw [List.map_map]; exact hm
  · intro i v
    rw [← hval, List.mem_map]
    constructor
    · rintro ⟨⟨t, w⟩, hp, he⟩
      obtain ⟨n, hn⟩ := hday _ hp
      simp only [Prod.mk.injEq] at he hn
      subst hn
      unfold Spec.midnight at he
      rw [Int.mul_ediv_cancel _ dayNs_pos.ne'] at he
      rw [← show n = i by omega, ← he.2]
      exact hp
    · intro hp
      refine ⟨_, hp, ?_⟩
      unfold Spec.midnight
      rw [Int.mul_ediv_cancel _ dayNs_pos.ne']
      simp

theorem cellAt_quot (a b : List Cell) (i : Nat) (v : ℚ) :
    cellAt (cellsDiv a b) i = some v ↔ ∃ x y, cellAt a i = some x ∧ cellAt b i = some y ∧ y ≠ 0 ∧ v = x / y := by
  unfold cellsDiv cellAt
  rw [List.getElem?_zipWith]
  cases a[i]? with
  | none => simp
  | some c =>
    cases b[i]? with
    | none => simp
    | some d =>
      cases c with
      | none => simp [cellDiv]
      | some x =>
        cases d with
        | none => simp [cellDiv]
        | some y =>
          by_cases hy : y = 0 <;> simp [cellDiv, hy, eq_comm]

/-- `x` is the index without season and soiling -/
def Spec.Corrected (pi seasonal ratio x : List Cell) : Prop :=
  ∀ i v, cellAt x i = some v ↔ ∃ p s r, cellAt pi i = some p ∧ cellAt seasonal i = some s ∧ cellAt ratio i = some r ∧
    s ≠ 0 ∧ r ≠ 0 ∧ v = p / s / r

theorem corrected_div (pi seasonal ratio : List Cell) :
    Spec.Corrected pi seasonal ratio (cellsDiv (cellsDiv pi seasonal) ratio) := by
  intro i v
  simp only [cellAt_quot]
  constructor
  · rintro ⟨-, r, ⟨p, s, hp, hs, hs0, rfl⟩, hr, hr0, rfl⟩
    exact ⟨p, s, r, hp, hs, hr, hs0, hr0, rfl⟩
  · rintro ⟨p, s, r, hp, hs, hr, hs0, hr0, rfl⟩
    exact ⟨_, r, ⟨p, s, hp, hs, hs0, rfl⟩, hr, hr0, rfl⟩

theorem level_between {day0 : Int} {x : List Cell} {k lo hi : ℚ}
    (hk : yoyRenorm true (sortIndex (dailySeries day0 x)) = some k)
    (h : ∀ i ≤ 364, ∀ v, cellAt x i = some v → lo ≤ v ∧ v ≤ hi) : lo ≤ k ∧ k ≤ hi := by
  have hx : 0 < x.length := by
    rcases Nat.eq_zero_or_pos x.length with h0 | h0
    · exfalso
      have : dailySeries day0 x = [] := by unfold dailySeries; rw [h0]; rfl
      rw [this] at hk
      cases hk
    · exact h0
  refine Chains.renorm_between (T := Spec.midnight day0 0) rfl ?_ ?_ hk
  · obtain ⟨r, hr, he⟩ := List.mem_map.mp (mem_days.mpr ⟨0, hx, rfl⟩ : Spec.midnight day0 0 ∈ (dailySeries day0 x).map Prod.fst)
    exact ⟨r, hr, he.le⟩
  · intro t v hv ht
    obtain ⟨i, rfl, hi⟩ := mem_dailySeries.mp hv
    refine h i ?_ v hi
    have : Spec.midnight day0 i ≤ Spec.midnight day0 364 := by
      unfold Spec.midnight at ht ⊢
      push_cast at ht ⊢
      linarith
    exact midnight_le.mp this

variable {freq : List Int → Option Int} {rest : DecompEnv} {fuel : Nat} {o : DecompOpts} {day0 : Int} {pi : List Cell}
  {out : Decomp}

/-- **C133 (changes).** With the year-on-year method the degradation rate reported is the median of the changes of the corrected
index from the day a year before, in percent of a level that lies between the values of the first 365 days. The index is
corrected by the season and the ratio returned, unless fitted again after the last fit of the degradation. -/
theorem C133_changes (h : decompose (yoyEnv freq day0 rest) fuel o day0 pi = .ok out) (hs : o.stl = false) {b : Bool}
    (hf : (Comp.Rd, b) ∈ out.log) :
    ∃ (seasonal ratio x : List Cell) (level : ℚ), Spec.Corrected pi seasonal ratio x ∧
      (Comp.SC ∉ Spec.since out.log .Rd → seasonal = out.seasonal) ∧
      (Comp.SR ∉ Spec.since out.log .Rd → ratio = out.ratio) ∧
      Spec.IsYearOnYear day0 x level out.degradation ∧ level ≠ 0 ∧
      ∀ lo hi, (∀ i ≤ 364, ∀ v, cellAt x i = some v → lo ≤ v ∧ v ≤ hi) → lo ≤ level ∧ level ≤ hi := by
  obtain ⟨sc, sr, hy, h1, h2⟩ := from_yoy_cells h hs hf
  obtain ⟨k, hk0, hk, hm⟩ := yearOnYearRate_ok (freq := freq) (day0 := day0) hy
  exact ⟨sc, sr, _, k, corrected_div _ _ _, h1, h2, hm, hk0, fun lo hi hb => level_between hk hb⟩

/-- the day a year before: the same date, or 365 days earlier -/
theorem C133_days {i j : Nat} (h : Spec.aYearBefore day0 i j) :
    (i = j + 365 ∨ i = j + 366) ∧ ∀ j', Spec.aYearBefore day0 i j' → j' = j := by
  refine ⟨aYearBefore_days h, fun j' h' => ?_⟩
  rcases Nat.lt_trichotomy j' j with hl | rfl | hl
  · have := anniversary_mono (day0 := day0) (show j' + 1 ≤ j by omega)
    have := h'.2; have := h.1; omega
  · rfl
  · have := anniversary_mono (day0 := day0) (show j + 1 ≤ j' by omega)
    have := h.2; have := h'.1; omega

theorem isYearOnYear_linear {x : List Cell} {a c level rate : ℚ} (h : Spec.IsYearOnYear day0 x level rate)
    (hx : ∀ i v, cellAt x i = some v → v = a + c * (i / 365)) : rate = 100 * c / level := by
  obtain ⟨l, -, hm, hl⟩ := h
  refine median_const (isMedian_iff.mp hm) ?_
  intro v hv
  obtain ⟨⟨i, w⟩, hw, rfl⟩ := List.mem_map.mp hv
  obtain ⟨j, hy, hc⟩ := (hl i w).mp hw
  obtain ⟨p, q, hp, hq, rfl⟩ := yearlyChange_some.mp hc
  simp only
  rw [hx i p hp, hx j q hq]
  have hij : (i : ℚ) - j ≠ 0 := by
    rcases aYearBefore_days hy with rfl | rfl <;> push_cast <;> intro hc <;> linarith
  field_simp
  ring

/-- a record that is the product of a level, a season, soiling and a linear degradation with slope `b` per 365 days, and fitted
season and soiling that are right up to constant factors -/
structure Spec.RightUpToFactors (pi seasonal ratio : List Cell) (A b c₁ c₂ : ℚ) (S R : Nat → ℚ) : Prop where
  level : 0 < A
  factors : 0 < c₁ ∧ 0 < c₂
  nonzero : ∀ i, S i ≠ 0 ∧ R i ≠ 0
  index : ∀ i p, cellAt pi i = some p → p = A * S i * R i * (1 + b * (i / 365))
  season : ∀ i s, cellAt seasonal i = some s → s = c₁ * S i
  soiling : ∀ i r, cellAt ratio i = some r → r = c₂ * R i

theorem corrected_linear {seasonal ratio x : List Cell} {A b c₁ c₂ : ℚ} {S R : Nat → ℚ}
    (H : Spec.RightUpToFactors pi seasonal ratio A b c₁ c₂ S R) (hx : Spec.Corrected pi seasonal ratio x) :
    ∀ i v, cellAt x i = some v → v = A / (c₁ * c₂) * (1 + b * (i / 365)) := by
  intro i v hv
  obtain ⟨p, s, r, hp, hs, hr, -, -, rfl⟩ := (hx i v).mp hv
  rw [H.index i p hp, H.season i s hs, H.soiling i r hr]
  have := H.factors.1.ne'
  have := H.factors.2.ne'
  have := (H.nonzero i).1
  have := (H.nonzero i).2
  field_simp

theorem since_last {log : List (Comp × Bool)} {c : Comp} {b : Bool} (h : log.getLast? = some (c, b)) :
    Spec.since log c = [] := by
  obtain ⟨ys, rfl⟩ := List.getLast?_eq_some_iff.mp h
  rw [since_append, if_pos rfl]

theorem corrected_last (h : decompose (yoyEnv freq day0 rest) fuel o day0 pi = .ok out) (hs : o.stl = false) {b : Bool}
    (hl : out.log.getLast? = some (.Rd, b)) :
    ∃ (x : List Cell) (k : ℚ), Spec.Corrected pi out.seasonal out.ratio x ∧ k ≠ 0 ∧
      yoyRenorm true (sortIndex (dailySeries day0 x)) = some k ∧ Spec.IsYearOnYear day0 x k out.degradation := by
  obtain ⟨sc, sr, hy, h1, h2⟩ := from_yoy_cells h hs (List.mem_of_getLast? hl)
  rw [since_last hl] at h1 h2
  obtain rfl := h1 (by simp)
  obtain rfl := h2 (by simp)
  obtain ⟨k, hk0, hk, hm⟩ := yearOnYearRate_ok (freq := freq) (day0 := day0) hy
  exact ⟨_, k, corrected_div _ _ _, hk0, hk, hm⟩

/-- **C133 (recovery).** If the index is a product of a season, soiling and a linear degradation, and the season and the soiling
returned are right up to constant factors, the rate reported (and the slope of the trend) is the true slope relative to a level
that lies between those of the first and the 365th day - whatever days are missing. -/
theorem C133_recover (h : decompose (yoyEnv freq day0 rest) fuel o day0 pi = .ok out) (hs : o.stl = false) {q : Bool}
    (hl : out.log.getLast? = some (.Rd, q)) {A b c₁ c₂ : ℚ} {S R : Nat → ℚ}
    (H : Spec.RightUpToFactors pi out.seasonal out.ratio A b c₁ c₂ S R) :
    ∃ κ, out.degradation = 100 * b / κ ∧ κ ≠ 0 ∧ min 1 (1 + b * (364 / 365)) ≤ κ ∧ κ ≤ max 1 (1 + b * (364 / 365)) ∧
      ∀ i < pi.length, cellAt out.trend i = some (1 + b / κ * (i / 365)) := by
  obtain ⟨x, k, hx, hk0, hk, hy⟩ := corrected_last h hs hl
  have hlin := corrected_linear H hx
  have hA : 0 < A / (c₁ * c₂) := div_pos H.level (mul_pos H.factors.1 H.factors.2)
  generalize hB : A / (c₁ * c₂) = B at hlin hA
  have hd : out.degradation = 100 * (B * b) / k := isYearOnYear_linear (a := B) hy fun i v hv => by rw [hlin i v hv]; ring
  have hd' : out.degradation = 100 * b / (k / B) := by rw [hd]; field_simp
  have hb := level_between (lo := B * min 1 (1 + b * (364 / 365))) (hi := B * max 1 (1 + b * (364 / 365))) hk (by
    intro i hi v hv
    rw [hlin i v hv]
    have hi' : (i : ℚ) / 365 ≤ 364 / 365 := by
      rw [div_le_div_iff_of_pos_right (by norm_num)]; exact_mod_cast hi
    have hi0 : (0 : ℚ) ≤ (i : ℚ) / 365 := by positivity
    constructor
    · apply mul_le_mul_of_nonneg_left _ hA.le
      rcases le_total 0 b with h0 | h0
      · exact le_trans (min_le_left _ _) (by nlinarith)
      · exact le_trans (min_le_right _ _) (by nlinarith)
    · apply mul_le_mul_of_nonneg_left _ hA.le
      rcases le_total 0 b with h0 | h0
      · exact le_trans (by nlinarith) (le_max_right _ _)
      · exact le_trans (by nlinarith) (le_max_left _ _))
  refine ⟨k / B, hd', div_ne_zero hk0 hA.ne', ?_, ?_, ?_⟩
  · rw [le_div_iff₀ hA, mul_comm]; exact hb.1
  · rw [div_le_iff₀ hA, mul_comm]; exact hb.2
  · intro i hi
    rw [C71_trend h hs hi, hd']
    congr 2
    ring

theorem dailySeries_sorted (day0 : Int) (x : List Cell) : sortIndex (dailySeries day0 x) = dailySeries day0 x := by
  unfold sortIndex
  apply List.Pairwise.insertionSort_eq
  unfold dailySeries
  rw [List.pairwise_map]
  refine List.Pairwise.imp ?_ List.pairwise_lt_range
  intro i j hij
  exact midnight_le.mpr hij.le

set_option maxRecDepth 4000 in
theorem median_affine {B b : ℚ} (hB : 0 < B) :
    median ((List.range 365).map fun i : Nat => B * (1 + b * ((i : ℚ) / 365))) = some (B * (1 + b * (182 / 365))) := by
  rw [← isMedian_iff]
  have hlen : ((List.range 365).map fun i : Nat => B * (1 + b * ((i : ℚ) / 365))).length = 365 := by simp
  rcases le_total 0 b with h0 | h0
  · refine ⟨_, List.Perm.refl _, ?_, ?_, ?_⟩
    · rw [List.pairwise_map]
      refine List.Pairwise.imp ?_ List.pairwise_lt_range
      intro i j hij
      have : (i : ℚ) / 365 ≤ (j : ℚ) / 365 := by
        rw [div_le_div_iff_of_pos_right (by norm_num)]; exact_mod_cast hij.le
      exact mul_le_mul_of_nonneg_left (by nlinarith) hB.le
    · intro hc; rw [hc] at hlen; simp at hlen
    · rw [hlen]
      simp only [Nat.reduceSub, Nat.reduceDiv, List.getD_eq_getElem?_getD, List.getElem?_map]
      rw [List.getElem?_range (by norm_num)]
      simp
  · refine ⟨_, List.reverse_perm _, ?_, ?_, ?_⟩
    · rw [List.pairwise_reverse, List.pairwise_map]
      refine List.Pairwise.imp ?_ List.pairwise_lt_range
      intro i j hij
      have : (i : ℚ) / 365 ≤ (j : ℚ) / 365 := by
        rw [div_le_div_iff_of_pos_right (by norm_num)]; exact_mod_cast hij.le
      exact mul_le_mul_of_nonneg_left (by nlinarith) hB.le
    · intro hc
      have := congrArg List.length hc
      rw [List.length_reverse, hlen] at this
      simp at this
    · rw [List.length_reverse, hlen]
      simp only [Nat.reduceSub, Nat.reduceDiv, List.getD_eq_getElem?_getD]
      rw [List.getElem?_reverse (by rw [hlen]; norm_num), hlen]
      simp only [Nat.reduceSub, List.getElem?_map]
      rw [List.getElem?_range (by norm_num)]
      simp

theorem level_affine {x : List Cell} {k B b : ℚ} (hk : yoyRenorm true (sortIndex (dailySeries day0 x)) = some k)
    (hB : 0 < B) (hb : -9 / 10 ≤ b ∧ b ≤ 9) (hx : ∀ i ≤ 364, cellAt x i = some (B * (1 + b * ((i : ℚ) / 365)))) :
    k = B * (1 + b * (182 / 365)) := by
  rw [dailySeries_sorted] at hk
  have hn : 365 ≤ x.length := lt_of_cellAt (hx 364 (by norm_num))
  obtain ⟨n, hn⟩ := Nat.exists_eq_add_of_le hn
  have hfilt : ((dailySeries day0 x).filter fun r => decide (Spec.midnight day0 0 ≤ r.1 ∧
      r.1 ≤ Spec.midnight day0 0 + 364 * dayNs)).map Prod.snd =
      ((List.range 365).map fun i : Nat => B * (1 + b * ((i : ℚ) / 365))).map some := by
    unfold dailySeries
    rw [hn, List.range_add, List.map_append, List.filter_append, List.map_append]
    have e1 : (List.filter (fun r : Int × Cell => decide (Spec.midnight day0 0 ≤ r.1 ∧
        r.1 ≤ Spec.midnight day0 0 + 364 * dayNs)) ((List.range 365).map fun i : Nat => ((day0 + (i : Int)) * dayNs, cellAt x i))) =
        (List.range 365).map fun i : Nat => ((day0 + (i : Int)) * dayNs, cellAt x i) := by
      rw [List.filter_eq_self]
      intro r hr
      obtain ⟨i, hi, rfl⟩ := List.mem_map.mp hr
      have hi := List.mem_range.mp hi
      have a1 : Spec.midnight day0 0 ≤ Spec.midnight day0 i := midnight_le.mpr (by omega)
      have a2 : Spec.midnight day0 i ≤ Spec.midnight day0 364 := midnight_le.mpr (by omega)
      unfold Spec.midnight at a1 a2 ⊢
      push_cast at a1 a2 ⊢
      simp only [decide_eq_true_eq]
      exact ⟨a1, by linarith⟩
    have e2 : (List.filter (fun r : Int × Cell => decide (Spec.midnight day0 0 ≤ r.1 ∧
        r.1 ≤ Spec.midnight day0 0 + 364 * dayNs)) (((List.range n).map (365 + ·)).map fun i : Nat =>
          ((day0 + (i : Int)) * dayNs, cellAt x i))) = [] := by
      rw [List.filter_eq_nil_iff]
      intro r hr
      obtain ⟨i, hi, rfl⟩ := List.mem_map.mp hr
      obtain ⟨m, -, rfl⟩ := List.mem_map.mp hi
      have a2 : Spec.midnight day0 364 < Spec.midnight day0 (365 + m) := midnight_lt.mpr (by omega)
      unfold Spec.midnight at a2 ⊢
      push_cast at a2 ⊢
      simp only [decide_eq_true_eq, not_and, not_le]
      intro _
      linarith
    rw [e1, e2, List.map_nil, List.append_nil, List.map_map, List.map_map]
    apply List.map_congr_left
    intro i hi
    have hi := List.mem_range.mp hi
    exact hx i (by omega)
  have hform : yoyRenorm true (dailySeries day0 x) = robustMedian (((dailySeries day0 x).filter fun r =>
      decide (Spec.midnight day0 0 ≤ r.1 ∧ r.1 ≤ Spec.midnight day0 0 + 364 * dayNs)).map Prod.snd) := by
    have : ∃ l, dailySeries day0 x = (Spec.midnight day0 0, cellAt x 0) :: l := by
      unfold dailySeries
      rw [hn, show 365 + n = (364 + n) + 1 by omega, List.range_succ_eq_map, List.map_cons]
      exact ⟨_, rfl⟩
    obtain ⟨l, hl⟩ := this
    rw [hl]
    rfl
  rw [hform, hfilt] at hk
  unfold robustMedian at hk
  have hne : ((List.range 365).map fun i : Nat => B * (1 + b * ((i : ℚ) / 365))) ≠ [] := by
    intro hc; have := congrArg List.length hc; simp at this
  have hQ := quantile_some hne (99 / 100)
  generalize quantileSorted _ _ = Q at hQ
  have hrange : ∀ v ∈ (List.range 365).map (fun i : Nat => B * (1 + b * ((i : ℚ) / 365))), B / 10 ≤ v ∧ v ≤ 10 * B := by
    intro v hv
    obtain ⟨i, hi, rfl⟩ := List.mem_map.mp hv
    have hi := List.mem_range.mp hi
    have hi' : (i : ℚ) / 365 ≤ 1 := by
      rw [div_le_one (by norm_num)]; exact_mod_cast hi.le
    have hi0 : (0 : ℚ) ≤ (i : ℚ) / 365 := by positivity
    constructor
    · have : 1 / 10 ≤ 1 + b * ((i : ℚ) / 365) := by nlinarith
      nlinarith
    · have : 1 + b * ((i : ℚ) / 365) ≤ 10 := by nlinarith
      nlinarith
  have hQ' := quantile_le hQ (by norm_num) (by norm_num) fun v hv => (hrange v hv).2
  rw [Chains.robustKeep_some _ hQ, List.filter_eq_self.mpr, median_affine hB] at hk
  · exact (Option.some.injEq _ _ ▸ hk).symm
  · intro v hv
    simp only [decide_eq_true_eq]
    have := (hrange v hv).1
    linarith

/-- **C133 (complete first year).** If moreover none of the first 365 days is missing and the loss per year is at most 90 %, the
level is the one in the middle of the first year: the rate reported is the true slope divided by `1 + b·182/365`. A decline is
thus reported steeper than it is relative to the first day, and so is the slope of the trend, which starts at one. -/
theorem C133_first_year (h : decompose (yoyEnv freq day0 rest) fuel o day0 pi = .ok out) (hs : o.stl = false) {q : Bool}
    (hl : out.log.getLast? = some (.Rd, q)) {A b c₁ c₂ : ℚ} {S R : Nat → ℚ}
    (H : Spec.RightUpToFactors pi out.seasonal out.ratio A b c₁ c₂ S R) (hb : -9 / 10 ≤ b ∧ b ≤ 9)
    (hall : ∀ i ≤ 364, cellAt pi i ≠ none ∧ cellAt out.seasonal i ≠ none ∧ cellAt out.ratio i ≠ none) :
    out.degradation = 100 * b / (1 + b * (182 / 365)) ∧
      ∀ i < pi.length, cellAt out.trend i = some (1 + b / (1 + b * (182 / 365)) * (i / 365)) := by
  obtain ⟨x, k, hx, hk0, hk, hy⟩ := corrected_last h hs hl
  have hlin := corrected_linear H hx
  have hA : 0 < A / (c₁ * c₂) := div_pos H.level (mul_pos H.factors.1 H.factors.2)
  have hkey := level_affine hk hA hb (by
    intro i hi
    obtain ⟨h1, h2, h3⟩ := hall i hi
    obtain ⟨p, hp⟩ := Option.ne_none_iff_exists'.mp h1
    obtain ⟨s, hs⟩ := Option.ne_none_iff_exists'.mp h2
    obtain ⟨r, hr⟩ := Option.ne_none_iff_exists'.mp h3
    have hv := (hx i _).mpr ⟨p, s, r, hp, hs, hr, by rw [H.season i s hs]; exact mul_ne_zero H.factors.1.ne' (H.nonzero i).1,
      by rw [H.soiling i r hr]; exact mul_ne_zero H.factors.2.ne' (H.nonzero i).2, rfl⟩
    rw [hv, ← hlin i _ hv])
  generalize A / (c₁ * c₂) = B at hlin hA hkey
  have hpos : (1 + b * (182 / 365)) ≠ 0 := by
    intro hc; rw [hkey, hc, mul_zero] at hk0; exact hk0 rfl
  have hd : out.degradation = 100 * b / (1 + b * (182 / 365)) := by
    rw [isYearOnYear_linear (a := B) (c := B * b) hy fun i v hv => by rw [hlin i v hv]; ring, hkey]
    field_simp
  refine ⟨hd, fun i hi => ?_⟩
  rw [C71_trend h hs hi, hd]
  congr 2
  ring

theorem addYears_two (t : Int) : addYears 2 t ≤ t + 731 * dayNs := by
  unfold addYears
  have h : dayNs * (t / dayNs) + t % dayNs = t := Int.mul_ediv_add_emod t dayNs
  have hp := dayNs_pos
  have key : dayNumber (addYearsDate 2 (civil (t / dayNs))) ≤ t / dayNs + 731 := by
    generalize t / dayNs = n
    obtain ⟨Y, mp, d, h0, h1, h2, h3, hc, hn, hl, hl2⟩ := civil_march n
    rw [hc]
    unfold addYearsDate
    simp only
    have hy : (if mp < 10 then Y else Y + 1) + 2 = if mp < 10 then Y + 2 else Y + 2 + 1 := by
      split <;> ring
    rw [hy]
    by_cases h : (if mp < 10 then mp + 3 else mp - 9) = 2 ∧ d = 29 ∧
        isLeap (if mp < 10 then Y + 2 else Y + 2 + 1) = false
    · rw [if_pos h]
      obtain ⟨g1, g2, g3⟩ := h
      have hmp : mp = 11 := by by_cases h : mp < 10 <;> simp only [h, if_true, if_false] at g1 <;> omega
      subst hmp
      rw [dayNumber_march (Y + 2) 11 28 (by norm_num) (by norm_num)]
      have := hl rfl g2
      omega
    · rw [if_neg h, dayNumber_march (Y + 2) mp d h0 h1]
      omega
  nlinarith

/-- **C133 (when there is a rate).** A signal of at least 731 days without negative values and with a positive one among the first
365 days has a rate exactly if some day has a value then and a year before; otherwise the call raises `ValueError`. -/
theorem C133_exists {x : List Cell} (hfreq : freq ((dailySeries day0 x).map Prod.fst) = some dayNs) (hn : 731 ≤ x.length)
    (hpos : ∀ i v, cellAt x i = some v → 0 ≤ v) (h1 : ∃ i ≤ 364, ∃ v, 0 < v ∧ cellAt x i = some v) :
    ((∃ d, yearOnYearRate freq day0 x = .ok d) ↔
      ∃ i j, Spec.aYearBefore day0 i j ∧ Spec.yearlyChange x 1 i j ≠ none) ∧
    ((∀ d, yearOnYearRate freq day0 x ≠ .ok d) → yearOnYearRate freq day0 x = .error .valueError) := by
  have hd := dailySeries_nodup day0 x
  have hmin : ∀ t ∈ (dailySeries day0 x).map Prod.fst, Spec.midnight day0 0 ≤ t ∧ t ≤ Spec.midnight day0 (x.length - 1) := by
    intro t ht
    obtain ⟨i, hi, rfl⟩ := mem_days.mp ht
    exact ⟨midnight_le.mpr (by omega), midnight_le.mpr (by omega)⟩
  have hne : dailySeries day0 x ≠ [] := by
    intro hc
    have := congrArg List.length hc
    simp [dailySeries] at this
    rw [this] at hn; simp at hn
  have hsorted : ((dailySeries day0 x).map Prod.fst).Pairwise (· ≤ ·) := by
    rw [← dailySeries_sorted]; exact sorted_times _
  have hrec : Spec.Recentrable (dailySeries day0 x) := by
    refine ⟨?_, Spec.midnight day0 0, ?_⟩
    · intro t e he
      obtain ⟨i, -, hi⟩ := mem_dailySeries.mp he
      exact hpos i e hi
    · obtain ⟨i, hi, v, hv, hc⟩ := h1
      refine ⟨Spec.midnight day0 i, v, mem_days.mpr ⟨0, by omega, rfl⟩, fun t ht => (hmin t ht).1, mem_midnight.mpr hc, hv, ?_⟩
      have := (midnight_le (day0 := day0)).mpr hi
      unfold Spec.midnight at this ⊢
      push_cast at this ⊢
      linarith
  have hshort : ¬ TooShort (freq ((dailySeries day0 x).map Prod.fst)) ((dailySeries day0 x).map Prod.fst) := by
    rintro ⟨a, b, st, ha, hb, hab, hst, hlt⟩
    have e1 : a = Spec.midnight day0 0 := le_antisymm (hab _ (mem_days.mpr ⟨0, by omega, rfl⟩)).1 (hmin a ha).1
    have e2 : b = Spec.midnight day0 (x.length - 1) :=
      le_antisymm (hmin b hb).2 (hab _ (mem_days.mpr ⟨x.length - 1, by omega, rfl⟩)).2
    rw [hfreq] at hst
    rcases hst with ⟨f, hf, rfl⟩ | ⟨hf, -⟩
    · cases hf
      have h2 := addYears_two a
      have hlt' : b < addYears 2 a - dayNs := by exact_mod_cast hlt
      have h3 : Spec.midnight day0 730 ≤ b := by rw [e2]; exact midnight_le.mpr (by omega)
      rw [e1] at h2 hlt'
      unfold Spec.midnight at h2 h3 hlt'
      push_cast at h2 h3 hlt'
      linarith
    · cases hf
  have hpair : HasPair (dailySeries day0 x) ↔ ∃ i j, Spec.aYearBefore day0 i j ∧ Spec.yearlyChange x 1 i j ≠ none := by
    constructor
    · rintro ⟨t, u, e, f, he, hf, hl⟩
      obtain ⟨i, rfl, hi⟩ := mem_dailySeries.mp he
      obtain ⟨j, rfl, hj⟩ := mem_dailySeries.mp hf
      refine ⟨i, j, (daily_partner (lt_of_cellAt hi)).mp hl, ?_⟩
      rw [yearlyChange_some.mpr ⟨e, f, hi, hj, rfl⟩]
      simp
    · rintro ⟨i, j, hy, hc⟩
      obtain ⟨v, hv⟩ := Option.ne_none_iff_exists'.mp hc
      obtain ⟨a, b, ha, hb, -⟩ := yearlyChange_some.mp hv
      exact ⟨_, _, a, b, mem_midnight.mpr ha, mem_midnight.mpr hb, (daily_partner (lt_of_cellAt ha)).mpr hy⟩
  -- the `simple` bootstrap is not drawn: any way to draw will do
  have hc := C25_value_error_iff (inferFreq := freq) (exceed := 95) (conf := 341 / 5) (block := 30) (draws := [])
    (choose := fun l => [l]) hne hd (List.Perm.refl _) hsorted (recenter := true) (fun _ => hrec) (method := .none)
    (by decide) (by norm_num) (by norm_num) (fun l hl => ⟨l, by simp, hl⟩)
  have hch : yoy freq true 95 (341 / 5) .none 30 (fun _ => []) [] (dailySeries day0 x) =
      yoy freq true 95 (341 / 5) .none 30 (fun l => [l]) [] (dailySeries day0 x) := rfl
  unfold yearOnYearRate
  rw [hch]
  have key : (∃ r, yoy freq true 95 (341 / 5) .none 30 (fun l => [l]) [] (dailySeries day0 x) = .ok r) ↔
      ∃ i j, Spec.aYearBefore day0 i j ∧ Spec.yearlyChange x 1 i j ≠ none := by
    rw [hc.2, ← hpair]; exact ⟨fun h => h.2, fun h => ⟨hshort, h⟩⟩
  refine ⟨?_, ?_⟩
  · rw [← key]
    constructor
    · rintro ⟨d, h⟩
      obtain ⟨r, hr, -⟩ := map_ok.mp h
      exact ⟨r, hr⟩
    · rintro ⟨r, hr⟩
      exact ⟨r.rd, by rw [hr]; rfl⟩
  · intro h
    have : ¬ HasPair (dailySeries day0 x) := by
      intro hp
      obtain ⟨r, hr⟩ := hc.2.mpr ⟨hshort, hp⟩
      exact h r.rd (by rw [hr]; rfl)
    rw [hc.1.mpr (.inr this)]
    rfl

-- 28 February and 1 March 2021 are compared with 29 February and 1 March 2020, 29 February 2020 with 28 February 2019
example : Spec.aYearBefore 18321 365 0 ∧ Spec.aYearBefore 18321 366 1 ∧ Spec.aYearBefore (18321 - 366) 366 0 := by
  unfold Spec.aYearBefore Spec.midnight; decide +kernel

/-- a record of two years that loses a tenth of its first value per year, with gaps -/
def exTwoYears : List Cell := (List.range 731).map fun i : Nat => if i % 5 = 0 then some (1 - i / 3650) else none

-- it has a rate, which is -10 relative to a level between 1 and 1 - 364/3650
example : ∃ d, yearOnYearRate (fun _ => some dayNs) 17897 exTwoYears = .ok d := by
  have hlen : exTwoYears.length = 731 := by simp [exTwoYears]
  have hat : ∀ i v, cellAt exTwoYears i = some v → i < 731 ∧ v = 1 - i / 3650 := by
    intro i v h
    have hi := lt_of_cellAt h
    rw [hlen] at hi
    unfold cellAt exTwoYears at h
    rw [List.getElem?_map, List.getElem?_range hi] at h
    simp only [Option.map_some, Option.join_some] at h
    split_ifs at h
    cases h
    exact ⟨hi, rfl⟩
  have h0 : cellAt exTwoYears 0 = some 1 := by
    unfold cellAt exTwoYears
    rw [List.getElem?_map, List.getElem?_range (by norm_num)]; simp
  have h365 : cellAt exTwoYears 365 = some (9 / 10) := by
    unfold cellAt exTwoYears
    rw [List.getElem?_map, List.getElem?_range (by norm_num)]; norm_num
  refine ((C133_exists (day0 := 17897) (x := exTwoYears) (freq := fun _ => some dayNs) rfl hlen.ge ?_ ⟨0, by norm_num, 1, by norm_num, h0⟩).1).mpr
    ⟨365, 0, ?_, ?_⟩
  · intro i v h
    obtain ⟨hi, rfl⟩ := hat i v h
    have : (i : ℚ) < 731 := by exact_mod_cast hi
    linarith
  · unfold Spec.aYearBefore Spec.midnight; decide +kernel
  · unfold Spec.yearlyChange; rw [h365, h0]; simp

-- an index with season and soiling of period two, fitted up to factors 2 and 1/2
example : Spec.RightUpToFactors ((List.range 4).map fun i : Nat => some ((if i % 2 = 0 then 3 else 2) * (1 + (-1 / 10) * ((i : ℚ) / 365))))
    [some 2, some 4, some 2, some 4] [some (1 / 2), none, some (1 / 2), some (1 / 6)] 3 (-1 / 10) 2 (1 / 2)
    (fun i => if i % 2 = 0 then 1 else 2) (fun i => if i % 2 = 0 then 1 else 1 / 3) where
  level := by norm_num
  factors := by norm_num
  nonzero i := by constructor <;> split_ifs <;> norm_num
  index i p h := by
    have hi := lt_of_cellAt h
    simp only [List.length_map, List.length_range] at hi
    interval_cases i <;> simp [cellAt, List.range_succ] at h ⊢ <;> linarith
  season i s h := by
    have hi := lt_of_cellAt h
    simp only [List.length_cons, List.length_nil] at hi
    interval_cases i <;> simp [cellAt] at h ⊢ <;> linarith
  soiling i r h := by
    have hi := lt_of_cellAt h
    simp only [List.length_cons, List.length_nil] at hi
    interval_cases i <;> simp [cellAt] at h ⊢ <;> linarith

end Verif.Cods
