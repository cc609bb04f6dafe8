import Verif.Spec.Availability
import Verif.Lemmas.AvailRuns
import Verif.Props.SrrSummaries

/-! # Property C48 (system outages) -/

namespace Verif
open Avail Spec

theorem maskedOffline_getElem {i : Input} {mask : List (List Bool)} (hl : mask.length = i.expected.length)
    {k : Nat} (hk : k < mask.length) :
    ∃ h : k < (maskedOffline i mask).length,
      ((maskedOffline i mask)[k] = none ↔ ¬ Daylight i.expected k) ∧
      ((maskedOffline i mask)[k] = some true ↔ Daylight i.expected k ∧ AllOff mask k) := by
  have hlen : (maskedOffline i mask).length = mask.length := by
    unfold maskedOffline; simp [hl]
  refine ⟨by rw [hlen]; exact hk, ?_⟩
  have hk' : k < i.expected.length := hl ▸ hk
  unfold maskedOffline
  rw [List.getElem_zipWith]
  have hd : cellCmp (fun a b : ℚ => decide (a < b)) (some 0) i.expected[k] = true ↔ Daylight i.expected k := by
    unfold Daylight
    rw [List.getElem?_eq_getElem hk']
    cases i.expected[k] with
    | none => simp [cellCmp]
    | some x => simp [cellCmp]
  have ho : (!(mask[k]).any id) = true ↔ AllOff mask k := by
    unfold AllOff
    rw [List.getElem?_eq_getElem hk]
    simp
  by_cases h : Daylight i.expected k
  · rw [if_pos (hd.mpr h)]
    refine ⟨by simp [h], ?_⟩
    rw [Option.some.injEq, ho]
    simp [h]
  · rw [if_neg (fun hc => h (hd.mp hc))]
    simp [h]

/-- the last daylight row up to `k` -/
theorem last_true (P : Nat → Prop) (k : Nat) : (∃ j ≤ k, P j ∧ ∀ m, j < m → m ≤ k → ¬ P m) ∨ ∀ m ≤ k, ¬ P m := by
  induction k with
  | zero =>
    by_cases h : P 0
    · exact Or.inl ⟨0, le_refl _, h, fun m h1 h2 => by omega⟩
    · exact Or.inr fun m hm => by rw [show m = 0 by omega]; exact h
  | succ k ih =>
    by_cases h : P (k + 1)
    · exact Or.inl ⟨k + 1, le_refl _, h, fun m h1 h2 => by omega⟩
    · rcases ih with ⟨j, hj, h1, h2⟩ | hn
      · refine Or.inl ⟨j, by omega, h1, fun m g1 g2 => ?_⟩
        rcases Nat.lt_or_eq_of_le g2 with g | g
        · exact h2 m g1 (by omega)
        · rw [g]; exact h
      · refine Or.inr fun m g2 => ?_
        rcases Nat.lt_or_eq_of_le g2 with g | g
        · exact hn m (by omega)
        · rw [g]; exact h

/-- the first row from `k` on, below `n` -/
theorem first_true (P : Nat → Prop) (k n : Nat) :
    (∃ j, k ≤ j ∧ j < n ∧ P j ∧ ∀ m, k ≤ m → m < j → ¬ P m) ∨ ∀ m, k ≤ m → m < n → ¬ P m := by
  induction n with
  | zero => exact Or.inr fun m _ h => by omega
  | succ n ih =>
    rcases ih with ⟨j, h1, h2, h3, h4⟩ | hn
    · exact Or.inl ⟨j, h1, by omega, h3, h4⟩
    · by_cases h : P n ∧ k ≤ n
      · exact Or.inl ⟨n, h.2, by omega, h.1, fun m g1 g2 => hn m g1 g2⟩
      · refine Or.inr fun m g1 g2 => ?_
        rcases Nat.lt_or_eq_of_le (Nat.lt_succ_iff.mp g2) with g | g
        · exact hn m g1 g
        · intro hp; rw [g] at hp g1; exact h ⟨hp, g1⟩

theorem daylight_lt {expected : List Cell} {k : Nat} (h : Daylight expected k) : k < expected.length := by
  obtain ⟨x, hx, -⟩ := h
  exact (List.getElem?_eq_some_iff.mp hx).1

/-- a row is treated as outage exactly if the last daylight row up to it or the first
daylight row from it on has no subsystem reporting (so outages extend over nights). -/
theorem outage_rows {i : Input} {mask : List (List Bool)} (hl : mask.length = i.expected.length) {k : Nat}
    (hk : k < mask.length) :
    (fullOutage (maskedOffline i mask))[k]? = some true ↔ InOutage i.expected mask k := by
  have hlen : (maskedOffline i mask).length = mask.length := by
    unfold maskedOffline; simp [hl]
  have hk' : k < (maskedOffline i mask).length := by rw [hlen]; exact hk
  have hf : k < (ffill (maskedOffline i mask)).length := by unfold ffill; rw [ffillFrom_length]; exact hk'
  have hb : k < (bfill (maskedOffline i mask)).length := by rw [bfill_length]; exact hk'
  have hout : (fullOutage (maskedOffline i mask))[k]? =
      some ((ffill (maskedOffline i mask))[k].getD false || (bfill (maskedOffline i mask))[k].getD false) := by
    unfold fullOutage
    rw [List.getElem?_eq_getElem (by simp; exact ⟨hf, hb⟩), List.getElem_zipWith]
  rw [hout, Option.some.injEq, Bool.or_eq_true]
  have hnone : ∀ m (hm : m < (maskedOffline i mask).length), ¬ Daylight i.expected m → (maskedOffline i mask)[m] = none := by
    intro m hm hd
    obtain ⟨_, h1, -⟩ := maskedOffline_getElem hl (k := m) (by rw [← hlen]; exact hm)
    exact h1.mpr hd
  unfold InOutage
  apply or_congr
  · -- forward fill
    rcases last_true (Daylight i.expected) k with ⟨j, hj, hd, hm⟩ | hn
    · have hjm : j < mask.length := by omega
      obtain ⟨hjl, h1, h2⟩ := maskedOffline_getElem hl hjm
      obtain ⟨v, hv⟩ := Option.ne_none_iff_exists'.mp (fun h => h1.mp h hd)
      have hff : (ffill (maskedOffline i mask))[k] = some v :=
        ffillFrom_getElem hj hk' hv fun m hml g1 g2 => hnone m hml (hm m g1 g2)
      rw [hff, Option.getD_some]
      constructor
      · rintro rfl
        exact ⟨j, hj, hd, (h2.mp hv).2, hm⟩
      · rintro ⟨j', hj', hd', ho', hm'⟩
        have : j' = j := by
          rcases Nat.lt_trichotomy j' j with g | g | g
          · exact absurd hd (hm' j g hj)
          · exact g
          · exact absurd hd' (hm j' g hj')
        subst this
        have := h2.mpr ⟨hd, ho'⟩
        rw [hv] at this
        simpa using this
    · have hff : (ffill (maskedOffline i mask))[k] = none :=
        ffillFrom_getElem_none hk' fun m hml g => hnone m hml (hn m g)
      rw [hff]
      constructor
      · intro h; simp at h
      · rintro ⟨j, hj, hd, -⟩; exact absurd hd (hn j hj)
  · rcases first_true (Daylight i.expected) k mask.length with ⟨j, hj, hjm, hd, hm⟩ | hn
    · obtain ⟨hjl, h1, h2⟩ := maskedOffline_getElem hl hjm
      obtain ⟨v, hv⟩ := Option.ne_none_iff_exists'.mp (fun h => h1.mp h hd)
      have hbf : (bfill (maskedOffline i mask))[k] = some v :=
        bfill_getElem hj hjl hv fun m hml g1 g2 => hnone m hml (hm m g1 g2)
      rw [hbf, Option.getD_some]
      constructor
      · rintro rfl
        exact ⟨j, hj, hd, (h2.mp hv).2, hm⟩
      · rintro ⟨j', hj', hd', ho', hm'⟩
        have : j' = j := by
          rcases Nat.lt_trichotomy j' j with g | g | g
          · exact absurd hd' (hm j' hj' g)
          · exact g
          · exact absurd hd (hm' j hj g)
        subst this
        have := h2.mpr ⟨hd, ho'⟩
        rw [hv] at this
        simpa using this
    · have hbf : (bfill (maskedOffline i mask))[k] = none :=
        bfill_getElem_none hk' fun m hml g => hnone m hml (hn m g (by rw [← hlen]; exact hml))
      rw [hbf]
      constructor
      · intro h; simp at h
      · rintro ⟨j, hj, hd, -⟩
        exact absurd hd (hn j hj (by rw [hl]; exact daylight_lt hd))

theorem outageInfo_bounds {i : Input} {mask : List (List Bool)} {d : ErrorDist} {outs : List Outage}
    (h : outageInfo i mask d = .ok outs) :
    outs.map (fun o => (o.first, o.last)) = outageBounds (fullOutage (maskedOffline i mask)) := by
  unfold outageInfo at h
  have hf := exceptMapM_ok h
  clear h
  generalize outageBounds (fullOutage (maskedOffline i mask)) = l at hf
  induction hf with
  | nil => rfl
  | @cons x o l os e _ ih =>
    rw [List.map_cons, ih]
    congr 1
    unfold outageRecord at e
    simp only at e
    cases h1 : interpE d.lower ((slice d.powerR x.1 x.2).filter fun x =>
        cellCmp (fun a b => decide (a < b)) (some 0) x).length with
    | error er => rw [h1] at e; simp [Except.bind] at e
    | ok lo =>
      cases h2 : interpE d.upper ((slice d.powerR x.1 x.2).filter fun x =>
          cellCmp (fun a b => decide (a < b)) (some 0) x).length with
      | error er => rw [h1, h2] at e; simp [Except.bind] at e
      | ok up =>
        rw [h1, h2] at e
        simp only [Except.bind, Except.ok.injEq] at e
        subst e
        rfl

theorem fullOutage_length {i : Input} {mask : List (List Bool)} (hl : mask.length = i.expected.length) :
    (fullOutage (maskedOffline i mask)).length = mask.length := by
  unfold fullOutage ffill
  rw [List.length_zipWith, ffillFrom_length, bfill_length]
  unfold maskedOffline
  simp [hl]

/-- **C48 (maximal runs).** If at least one row is outside an outage, the reported outages are exactly the
maximal runs of outage rows, in order and separated from each other, also at either end of the data.
Missing from the full statement: data that is one single outage (see `C48_whole_series_refuted`). -/
theorem C48_maximal_runs_partial {i : Input} {mask : List (List Bool)} {d : ErrorDist} {outs : List Outage}
    (hl : mask.length = i.expected.length) (h : outageInfo i mask d = .ok outs)
    (hne : ∃ k < mask.length, ¬ InOutage i.expected mask k) :
    (∀ s e, (∃ o ∈ outs, o.first = s ∧ o.last = e) ↔ MaxRun (InOutage i.expected mask) mask.length s e) ∧
    outs.Pairwise (fun o o' => o.last + 1 < o'.first) := by
  have hb := outageInfo_bounds h
  have hfl := fullOutage_length (i := i) hl
  have hrow : ∀ k, k < mask.length →
      ((fullOutage (maskedOffline i mask))[k]? = some true ↔ InOutage i.expected mask k) :=
    fun k hk => outage_rows hl hk
  set b := fullOutage (maskedOffline i mask) with hbdef
  have hfalse : false ∈ b := by
    obtain ⟨k, hk, hn⟩ := hne
    have hkb : k < b.length := by rw [hfl]; exact hk
    have : b[k]? ≠ some true := fun hc => hn ((hrow k hk).mp hc)
    rw [List.getElem?_eq_getElem hkb] at this
    have hv : b[k] = false := by
      cases hv : b[k] with
      | true => rw [hv] at this; exact absurd rfl this
      | false => rfl
    exact hv ▸ List.getElem_mem hkb
  rw [outageBounds_runs hfalse] at hb
  obtain ⟨B1, B2, -⟩ := runsFrom_bounds b 0
  have hcov := runsFrom_cover b 0
  simp only [Nat.zero_add] at B1 hcov
  have hmem : ∀ s e, (∃ o ∈ outs, o.first = s ∧ o.last = e) ↔ (s, e) ∈ runsFrom 0 b := by
    intro s e
    rw [← hb]
    simp
  have hP : ∀ k, (∃ x ∈ runsFrom 0 b, x.1 ≤ k ∧ k ≤ x.2) ↔ (k < mask.length ∧ InOutage i.expected mask k) := by
    intro k
    rw [hcov]
    constructor
    · intro hk
      have hkl : k < mask.length := by
        rw [← hfl]; exact (List.getElem?_eq_some_iff.mp hk).1
      exact ⟨hkl, (hrow k hkl).mp hk⟩
    · rintro ⟨hk, ho⟩
      exact (hrow k hk).mpr ho
  -- two runs never touch
  have hsep : ∀ x ∈ runsFrom 0 b, ∀ y ∈ runsFrom 0 b, x = y ∨ x.2 + 1 < y.1 ∨ y.2 + 1 < x.1 := by
    intro x hx y hy
    obtain ⟨p, hp, rfl⟩ := List.getElem_of_mem hx
    obtain ⟨q, hq, rfl⟩ := List.getElem_of_mem hy
    rcases Nat.lt_trichotomy p q with g | g | g
    · exact Or.inr (Or.inl (List.pairwise_iff_getElem.mp B2 p q hp hq g))
    · subst g; exact Or.inl rfl
    · exact Or.inr (Or.inr (List.pairwise_iff_getElem.mp B2 q p hq hp g))
  refine ⟨fun s e => ?_, ?_⟩
  · rw [hmem]
    constructor
    · intro hx
      obtain ⟨-, g2, g3⟩ := B1 _ hx
      simp only at g2 g3
      refine ⟨g2, by rw [← hfl]; exact g3, fun k h1 h2 => ((hP k).mp ⟨_, hx, h1, h2⟩).2, ?_, ?_⟩
      · rintro j rfl hj
        obtain ⟨y, hy, y1, y2⟩ := (hP j).mpr ⟨by omega, hj⟩
        obtain ⟨-, w2, w3⟩ := B1 _ hy
        rcases hsep _ hx _ hy with g | g | g
        · rw [← g] at y1; simp only at y1; omega
        · simp only at g; omega
        · simp only at g; omega
      · intro hlt hj
        obtain ⟨y, hy, y1, y2⟩ := (hP (e + 1)).mpr ⟨hlt, hj⟩
        rcases hsep _ hx _ hy with g | g | g
        · rw [← g] at y2; simp only at y2; omega
        · simp only at g; omega
        · simp only at g; omega
    · rintro ⟨h1, h2, h3, h4, h5⟩
      obtain ⟨x, hx, x1, x2⟩ := (hP s).mpr ⟨by omega, h3 s (le_refl _) h1⟩
      obtain ⟨-, w2, w3⟩ := B1 _ hx
      have e1 : x.1 = s := by
        by_contra hc
        obtain ⟨j, rfl⟩ : ∃ j, s = j + 1 := ⟨s - 1, by omega⟩
        exact h4 j rfl ((hP j).mp ⟨x, hx, by omega, by omega⟩).2
      have e2 : x.2 = e := by
        rcases Nat.lt_trichotomy x.2 e with g | g | g
        · -- the row after the run is an outage row, so another run touches this one
          exfalso
          obtain ⟨y, hy, y1, y2⟩ := (hP (x.2 + 1)).mpr ⟨by omega, h3 _ (by omega) (by omega)⟩
          rcases hsep _ hx _ hy with g' | g' | g'
          · rw [← g'] at y2; omega
          · omega
          · omega
        · exact g
        · exfalso
          exact h5 (by rw [hfl] at w3; omega) ((hP (e + 1)).mp ⟨x, hx, by omega, by omega⟩).2
      rw [← e1, ← e2]
      exact hx
  · rw [← hb, List.pairwise_map] at B2
    exact B2

/-- **C48 (outage rows).** If at least one row is outside an outage, a row belongs to a reported outage exactly if the last daylight row
up to it or the first daylight row from it on has no subsystem reporting (so outages extend over nights). -/
theorem C48_outage_rows {i : Input} {mask : List (List Bool)} {d : ErrorDist} {outs : List Outage}
    (hl : mask.length = i.expected.length) (h : outageInfo i mask d = .ok outs)
    (hne : ∃ k < mask.length, ¬ InOutage i.expected mask k) {k : Nat} (hk : k < mask.length) :
    (∃ o ∈ outs, o.first ≤ k ∧ k ≤ o.last) ↔ InOutage i.expected mask k := by
  obtain ⟨hr, -⟩ := C48_maximal_runs_partial hl h hne
  constructor
  · rintro ⟨o, ho, h1, h2⟩
    exact ((hr o.first o.last).mp ⟨o, ho, rfl, rfl⟩).2.2.1 k h1 h2
  · intro hP
    -- the last row before and the first row after that are outside
    obtain ⟨s, hs1, hs2, hs3⟩ : ∃ s ≤ k, (∀ m, s ≤ m → m ≤ k → InOutage i.expected mask m) ∧
        ∀ j, s = j + 1 → ¬ InOutage i.expected mask j := by
      rcases last_true (fun m => ¬ InOutage i.expected mask m) k with ⟨j, hj, hj1, hj2⟩ | hn
      · have : j ≠ k := by rintro rfl; exact hj1 hP
        exact ⟨j + 1, by omega, fun m h1 h2 => not_not.mp (hj2 m (by omega) h2), fun j' h => by
          obtain rfl : j' = j := by omega
          exact hj1⟩
      · exact ⟨0, by omega, fun m _ h2 => not_not.mp (hn m h2), fun j h => by omega⟩
    obtain ⟨e, he1, he2, he3, he4⟩ : ∃ e, k ≤ e ∧ e < mask.length ∧ (∀ m, k ≤ m → m ≤ e → InOutage i.expected mask m) ∧
        (e + 1 < mask.length → ¬ InOutage i.expected mask (e + 1)) := by
      rcases first_true (fun m => ¬ InOutage i.expected mask m) k mask.length with ⟨j, hj, hj0, hj1, hj2⟩ | hn
      · have : j ≠ k := by rintro rfl; exact hj1 hP
        refine ⟨j - 1, by omega, by omega, fun m h1 h2 => not_not.mp (hj2 m h1 (by omega)), fun _ => ?_⟩
        rw [show j - 1 + 1 = j by omega]
        exact hj1
      · exact ⟨mask.length - 1, by omega, by omega, fun m h1 h2 => not_not.mp (hn m h1 (by omega)), fun h => by omega⟩
    obtain ⟨o, ho, h1, h2⟩ := (hr s e).mpr ⟨by omega, he2, fun m h1 h2 => by
      by_cases hm : m ≤ k
      · exact hs2 m h1 hm
      · exact he3 m (by omega) h2, hs3, he4⟩
    exact ⟨o, ho, by omega, by omega⟩

/-- **C48, negative part.** Data that lies entirely in an outage reports no outage at all. -/
theorem C48_whole_series {i : Input} {mask : List (List Bool)} {d : ErrorDist} {outs : List Outage}
    (hl : mask.length = i.expected.length) (h : outageInfo i mask d = .ok outs)
    (hall : ∀ k < mask.length, InOutage i.expected mask k) : outs = [] := by
  have hb := outageInfo_bounds h
  have hfl := fullOutage_length (i := i) hl
  rw [outageBounds_all] at hb
  · simpa using hb
  · intro hf
    obtain ⟨k, hk, e⟩ := List.getElem_of_mem hf
    have hk' : k < mask.length := by rw [← hfl]; exact hk
    have := (outage_rows hl hk').mpr (hall k hk')
    rw [List.getElem?_eq_getElem hk, e] at this
    simp at this

/-- hourly data of a plant whose inverters never report while its meter does -/
def exSilent : Input :=
  { index := (List.range 6).map fun k : Nat => (k : Int) * 3600000000000
    freq := none
    system := [some 2, some 2, some 2, some 2, some 2, some 2]
    ncols := 1
    subs := [[none], [none], [none], [none], [none], [none]]
    cum := [some 0, some 2, some 4, some 6, some 8, some 10]
    expected := [some 1, some 1, some 1, some 1, some 1, some 1] }

/-- default arguments of `run` with a rollup over everything -/
def exArgs : Args := ⟨none, none, [], 1 / 100, 99 / 100, some fun _ => 0⟩

/-- **C48 (refuted for a series that is one outage).** The analysis of `exSilent` succeeds and reports no
outage, although every row is a row with positive expected power and no subsystem reporting. -/
theorem C48_whole_series_refuted :
    (run exArgs ⟨exSilent, none, none, none, none, none, none⟩).1.outages = some [] ∧
    (∀ k < 6, InOutage exSilent.expected (lossSubsystem exArgs exSilent).mask k) := by
  refine ⟨by decide +kernel, fun k hk => Or.inl ⟨k, le_refl _, ?_, ?_, fun m h1 h2 => by omega⟩⟩
  · have : ∀ k < 6, exSilent.expected[k]? = some (some 1) := by decide +kernel
    exact ⟨1, this k hk, by norm_num⟩
  · have : ∀ k < 6, (lossSubsystem exArgs exSilent).mask[k]? = some [false] := by decide +kernel
    exact ⟨[false], this k hk, by simp⟩

/-- hourly data of a plant with two equal inverters; nothing is produced or reported in rows 4 to 6 -/
def exA : Input :=
  { index := (List.range 12).map fun k : Nat => (k : Int) * 3600000000000
    freq := none
    system := [some 0, some 2, some 4, some 4, some 0, some 0, some 0, some 4, some 4, some 4, some 2, some 0]
    ncols := 2
    subs := [[some 0, some 0], [some 1, some 1], [some 2, some 2], [some 2, some 2], [none, none], [none, none],
      [none, none], [some 2, some 2], [some 2, some 2], [some 2, some 2], [some 1, some 1], [some 0, some 0]]
    cum := [some 0, some 2, some 6, some 10, none, none, some 10, some 14, some 18, some 22, some 24, some 24]
    expected := [some 0, some 2, some 4, some 4, some 4, some 4, some 4, some 4, some 4, some 4, some 2, some 0] }

/-- default arguments of `run` with a rollup over six hours -/
def exA_args : Args := ⟨none, none, [], 1 / 100, 99 / 100, some fun t => t / 21600000000000⟩

-- rows inside and outside an outage: the hypotheses of `C48_maximal_runs_partial`
example : fullOutage (maskedOffline exA (lossSubsystem exA_args exA).mask) =
    [false, false, false, false, true, true, true, false, false, false, false, false] := by decide +kernel

end Verif
