import Verif.Props.YearOnYear

/-! # C147: a longer record keeps the year-on-year rates that were found before -/

namespace Verif

open Spec

variable {inferFreq : List Int → Option Int} {recenter : Bool} {exceed conf : ℚ} {method : Uncertainty}
  {block : Nat} {choose : List ℚ → List (List ℚ)} {draws : List (List Nat)} {s : Series} {r r' : YoYResult}

theorem sortIndex_append {a b : Series} (hd : ((a ++ b).map Prod.fst).Nodup) (hab : ∀ p ∈ a, ∀ q ∈ b, p.1 < q.1) :
    sortIndex (a ++ b) = sortIndex a ++ sortIndex b := by
  have hd' := hd
  rw [List.map_append] at hd'
  have ha := hd'.of_append_left
  have hb := hd'.of_append_right
  apply List.Perm.eq_of_pairwise (le := fun a b : Int × Cell => a.1 < b.1) _ (strict_pairs (sortIndex_strict hd))
  · rw [List.pairwise_append]
    refine ⟨strict_pairs (sortIndex_strict ha), strict_pairs (sortIndex_strict hb), fun p hp q hq => ?_⟩
    exact hab p ((sortIndex_perm a).mem_iff.mp hp) q ((sortIndex_perm b).mem_iff.mp hq)
  · exact (sortIndex_perm _).trans ((sortIndex_perm a).symm.append (sortIndex_perm b).symm)
  · intro a b _ _ h1 h2; exact absurd (lt_trans h1 h2) (lt_irrefl _)

theorem addYears_after (u : Int) : u < addYears 1 u := by
  have := dayNs_pos
  rcases addYears_one u with e | e <;> linarith

/-- samples after `t` are no partners of `t` -/
theorem latest_append {a b : List Int} {t : Int} (hb : ∀ w ∈ b, t < w) (u : Int) :
    LatestAnniversary (a ++ b) t u ↔ LatestAnniversary a t u := by
  constructor
  · rintro ⟨h1, h2, h3, h4⟩
    refine ⟨?_, h2, h3, fun w hw => h4 w (List.mem_append_left _ hw)⟩
    rcases List.mem_append.mp h1 with h | h
    · exact h
    · have := hb u h
      have := addYears_after u
      omega
  · rintro ⟨h1, h2, h3, h4⟩
    refine ⟨List.mem_append_left _ h1, h2, h3, fun w hw hwt => ?_⟩
    rcases List.mem_append.mp hw with h | h
    · exact h4 w h hwt
    · have := hb w h
      have := addYears_after w
      omega

theorem asofYear_append {a b : Series} (hs : StrictSorted ((a ++ b).map Prod.fst)) {t : Int} (hb : ∀ w ∈ b, t < w.1) :
    asofYear (a ++ b) t = asofYear a t := by
  have ha : StrictSorted (a.map Prod.fst) := by
    unfold StrictSorted at hs ⊢
    rw [List.map_append, List.pairwise_append] at hs
    exact hs.1
  have hb' : ∀ w ∈ b.map Prod.fst, t < w := by
    intro w hw
    obtain ⟨x, hx, rfl⟩ := List.mem_map.mp hw
    exact hb x hx
  cases h : asofYear a t with
  | none =>
    rw [asofYear_eq_none hs]
    intro u hu
    rw [List.map_append] at hu
    exact (asofYear_eq_none ha).mp h u ((latest_append hb' u).mp hu)
  | some x =>
    obtain ⟨u, e⟩ := x
    obtain ⟨h1, h2⟩ := (asofYear_eq_some ha).mp h
    rw [asofYear_eq_some hs, List.map_append]
    exact ⟨List.mem_append_left _ h1, (latest_append hb' u).mpr h2⟩

theorem yoyTable_append {a b : Series} (hs : StrictSorted ((a ++ b).map Prod.fst)) :
    ∃ rest, yoyTable (a ++ b) = yoyTable a ++ rest ∧ rest.map YoYRow.dt = b.map Prod.fst := by
  have hp : ∀ p ∈ a, ∀ q ∈ b, p.1 < q.1 := (List.pairwise_append.mp (strict_pairs hs)).2.2
  refine ⟨(yoyTable (a ++ b)).drop a.length, ?_, ?_⟩
  · have h1 : (yoyTable (a ++ b)).take a.length = yoyTable a := by
      unfold yoyTable
      rw [← List.map_take, List.take_left]
      apply List.map_congr_left
      intro x hx
      rw [asofYear_append hs (hp x hx)]
    rw [← h1, List.take_append_drop]
  · rw [List.map_drop, yoyTable_dt, List.map_append, List.drop_left' (by simp)]

theorem yoyRenorm_append {a b : Series} (ha : a ≠ []) (hs : StrictSorted ((a ++ b).map Prod.fst))
    (hf : recenter = true → ∀ q ∈ b, ∃ p ∈ a, p.1 + 364 * dayNs < q.1) :
    yoyRenorm recenter (a ++ b) = yoyRenorm recenter a := by
  unfold yoyRenorm
  cases recenter with
  | false => rfl
  | true =>
    cases a with
    | nil => exact absurd rfl ha
    | cons x l =>
      simp only [if_true, List.cons_append]
      congr 2
      rw [← List.cons_append, List.filter_append]
      have hmin : ∀ p ∈ x :: l, x.1 ≤ p.1 := by
        intro p hp
        rcases List.mem_cons.mp hp with rfl | hp
        · exact le_rfl
        · have := (List.pairwise_append.mp (strict_pairs hs)).1
          exact le_of_lt ((List.pairwise_cons.mp this).1 p hp)
      have : (b.filter fun r => decide (x.1 ≤ r.1 ∧ r.1 ≤ x.1 + 364 * dayNs)) = [] := by
        rw [List.filter_eq_nil_iff]
        intro q hq
        obtain ⟨p, hp, hlt⟩ := hf rfl q hq
        have := hmin p hp
        simp only [decide_eq_true_eq, not_and, not_le]
        intro _
        linarith
      rw [this, List.append_nil]

theorem usage_append (tbl rest : List YoYRow) {t : Int} {n : Nat} (h : (t, n) ∈ usageOfPoints tbl) :
    ∃ n', n ≤ n' ∧ (t, n') ∈ usageOfPoints (tbl ++ rest) := by
  unfold usageOfPoints at h ⊢
  obtain ⟨x, hx, e⟩ := List.mem_map.mp h
  cases e
  refine ⟨_, ?_, List.mem_map.mpr ⟨x, List.mem_append_left _ hx, rfl⟩⟩
  rw [List.find?_append]
  cases hf : tbl.find? fun y => decide (y.right = some x.dt) with
  | none => simp only [Option.elim_none]; omega
  | some y => simp

/-- the shared part of the two theorems on later samples -/
theorem later_core {later : Series} {blk : Option ℚ} {c : YoYCore}
    (hd : ((s ++ later).map Prod.fst).Nodup) (hl : ∀ p ∈ s, ∀ q ∈ later, p.1 < q.1)
    (hf : recenter = true → ∀ q ∈ later, ∃ p ∈ s, p.1 + 364 * dayNs < q.1)
    (h : yoyCore inferFreq recenter blk s = .ok c) :
    yoyRenorm recenter (sortIndex (s ++ later)) = c.renorm ∧
    ∃ rest, yoyTable (renormalize (sortIndex (s ++ later)) c.renorm) = c.table ++ rest ∧
      rest.map YoYRow.dt = (sortIndex later).map Prod.fst := by
  obtain ⟨a1, a2, a3, -, -⟩ := yoyCore_ok h
  have hne : sortIndex s ≠ [] := by
    intro hn
    unfold yoyCore at h
    simp only [hn] at h
    cases h
  have hs := sortIndex_strict hd
  rw [sortIndex_append hd hl] at hs ⊢
  have hrn : yoyRenorm recenter (sortIndex s ++ sortIndex later) = c.renorm := by
    rw [a1]
    apply yoyRenorm_append hne hs
    intro hr q hq
    obtain ⟨p, hp, hlt⟩ := hf hr q ((sortIndex_perm later).mem_iff.mp hq)
    exact ⟨p, (sortIndex_perm s).mem_iff.mpr hp, hlt⟩
  refine ⟨hrn, ?_⟩
  have happ : renormalize (sortIndex s ++ sortIndex later) c.renorm = c.sorted ++ renormalize (sortIndex later) c.renorm := by
    rw [a2]
    unfold renormalize
    rw [List.map_append]
  rw [happ, a3]
  obtain ⟨rest, h1, h2⟩ := yoyTable_append (a := c.sorted) (b := renormalize (sortIndex later) c.renorm)
    (by rw [← happ, renormalize_keys]; exact hs)
  exact ⟨rest, h1, by rw [h2, renormalize_keys]⟩

/-- **C147 (later samples).** When a record is continued after the first year, the recentering factor and all year-on-year values stay
as they are: the values of the longer record are those of the shorter one followed by values at the new times. The usage
count of a sample never decreases. -/
theorem C147_later {later : Series} (hd : ((s ++ later).map Prod.fst).Nodup) (hl : ∀ p ∈ s, ∀ q ∈ later, p.1 < q.1)
    (hf : recenter = true → ∀ q ∈ later, ∃ p ∈ s, p.1 + 364 * dayNs < q.1)
    (h : yoy inferFreq recenter exceed conf method block choose draws s = .ok r)
    (h' : yoy inferFreq recenter exceed conf method block choose draws (s ++ later) = .ok r') :
    r'.renorm = r.renorm ∧
    (∃ new, r'.values = r.values ++ new ∧ ∀ x ∈ new, x.1 ∈ later.map Prod.fst) ∧
    ∀ t n, (t, n) ∈ r.usage → ∃ n', n ≤ n' ∧ (t, n') ∈ r'.usage := by
  obtain ⟨c, hc, -, b2, b3, b4⟩ := yoy_ok h
  obtain ⟨c', hc', -, b2', b3', b4'⟩ := yoy_ok h'
  obtain ⟨hrn, rest, htab, hdt⟩ := later_core hd hl hf hc
  obtain ⟨a1', a2', a3', -, -⟩ := yoyCore_ok hc'
  have hren : c'.renorm = c.renorm := by rw [a1', hrn]
  have ht : c'.table = c.table ++ rest := by rw [a3', a2', hren, htab]
  refine ⟨by rw [b2, b2', hren], ⟨rest.filterMap fun x => x.yoy.map fun v => (x.dt, v), ?_, ?_⟩, ?_⟩
  · rw [b4', ht, List.filterMap_append, b4]
  · intro x hx
    obtain ⟨y, hy, e⟩ := List.mem_filterMap.mp hx
    have hxy : x.1 = y.dt := by
      cases hv : y.yoy with
      | none => rw [hv] at e; cases e
      | some v => rw [hv] at e; cases e; rfl
    rw [hxy, ← ((sortIndex_perm later).map Prod.fst).mem_iff, ← hdt]
    exact List.mem_map_of_mem hy
  · intro t n hn
    rw [b3] at hn
    rw [b3', ht]
    exact usage_append _ _ hn

/-- **C147 (accepted).** A record that is continued with the same sampling step keeps being accepted. -/
theorem C147_accepted {later : Series} {f : Int} (hd : ((s ++ later).map Prod.fst).Nodup) (hl : ∀ p ∈ s, ∀ q ∈ later, p.1 < q.1)
    (hf : recenter = true → ∀ q ∈ later, ∃ p ∈ s, p.1 + 364 * dayNs < q.1)
    (hstep : inferFreq ((sortIndex s).map Prod.fst) = some f)
    (hstep' : inferFreq ((sortIndex (s ++ later)).map Prod.fst) = some f)
    (h : yoy inferFreq recenter exceed conf .none block choose draws s = .ok r) :
    ∃ r', yoy inferFreq recenter exceed conf .none block choose draws (s ++ later) = .ok r' := by
  obtain ⟨c, hc, -⟩ := yoy_ok h
  rw [if_neg (by simp)] at hc
  obtain ⟨hrn, rest, htab, hdt⟩ := later_core hd hl hf hc
  obtain ⟨a1, a2, a3, a4, a5⟩ := yoyCore_ok hc
  have hmed : ∃ rd, median (valids ((yoyTable (renormalize (sortIndex (s ++ later)) c.renorm)).map YoYRow.yoy)) = some rd := by
    rw [← Option.isSome_iff_exists, median_isSome, htab]
    have : valids (c.table.map YoYRow.yoy) ≠ [] := by
      rw [← median_isSome, ← a4, a5]; rfl
    intro hn
    rw [List.map_append] at hn
    unfold valids at hn this
    rw [List.filterMap_append, List.append_eq_nil_iff] at hn
    exact this hn.1
  obtain ⟨rd, hrd⟩ := hmed
  -- the two-year test
  have hne : (sortIndex s).map Prod.fst ≠ [] := by
    intro hn
    unfold yoyCore at hc
    simp only [hn] at hc
    cases hc
  have hu : underTwoYears (some f) ((sortIndex s).map Prod.fst) = false := by
    unfold yoyCore at hc
    simp only [hstep] at hc
    rw [if_neg hne] at hc
    by_contra hcon
    rw [Bool.not_eq_false] at hcon
    rw [if_pos hcon] at hc
    cases hc
  have hu' : underTwoYears (some f) ((sortIndex (s ++ later)).map Prod.fst) = false := by
    rw [sortIndex_append hd hl, List.map_append]
    have hst := sortIndex_strict hd
    rw [sortIndex_append hd hl, List.map_append] at hst
    cases ha : (sortIndex s).map Prod.fst with
    | nil => exact absurd ha hne
    | cons x l =>
      rw [ha] at hu hst
      cases hb : (sortIndex later).map Prod.fst using List.reverseRecOn with
      | nil => rw [List.append_nil]; exact hu
      | append_singleton m y _ =>
        rw [hb] at hst
        unfold underTwoYears at hu ⊢
        simp only [List.cons_append, yoyStep, cellCmp, Option.map_some, decide_eq_false_iff_not, not_lt] at hu ⊢
        refine le_trans hu ?_
        have hy : (x :: (l ++ (m ++ [y]))).getLastD x = y := by
          rw [← List.append_assoc, ← List.cons_append, List.getLastD_eq_getLast?, List.getLast?_concat]
          rfl
        rw [hy]
        have hlast : (x :: l).getLastD x ∈ x :: l := by
          rw [List.getLastD_eq_getLast?, List.getLast?_eq_getLast_of_ne_nil (by simp)]
          exact List.getLast_mem _
        have := (List.pairwise_append.mp hst).2.2 _ hlast y (by simp)
        exact_mod_cast le_of_lt this
  have hne' : (sortIndex (s ++ later)).map Prod.fst ≠ [] := by
    rw [sortIndex_append hd hl, List.map_append]
    exact fun hn => hne (List.append_eq_nil_iff.mp hn).1
  have hcore : ∃ c', yoyCore inferFreq recenter none (s ++ later) = .ok c' := by
    unfold yoyCore
    simp only [hstep', hu', hne', if_false, Bool.false_eq_true, Option.isSome_none, false_and, and_false, hrn, hrd]
    exact ⟨_, rfl⟩
  obtain ⟨c', hc'⟩ := hcore
  unfold yoy
  rw [if_neg (by simp), hc']
  exact ⟨_, rfl⟩

/-- **C147 (earlier samples).** When samples more than a day before the record are added, every year-on-year value stays, at its
time and up to the ratio of the recentering factors (the same value without recentering). New values may appear in the first
year of the old record. -/
theorem C147_earlier {earlier : Series} (hd : ((earlier ++ s).map Prod.fst).Nodup)
    (hl : ∀ p ∈ earlier, ∀ q ∈ s, p.1 + dayNs ≤ q.1)
    (h : yoy inferFreq recenter exceed conf method block choose draws s = .ok r)
    (h' : yoy inferFreq recenter exceed conf method block choose draws (earlier ++ s) = .ok r')
    {k k' : ℚ} (hk : r.renorm = some k) (hk' : r'.renorm = some k') (hne : k' ≠ 0) :
    ∀ t v, (t, v) ∈ r.values → (t, v * (k / k')) ∈ r'.values := by
  intro t v hv
  have hds : (s.map Prod.fst).Nodup := by
    rw [List.map_append] at hd
    exact hd.of_append_right
  obtain ⟨e, f, u, k0, hk0, hk0n, h1, h2, h3, rfl⟩ := (C21_pairs h hds t v).mp hv
  rw [hk] at hk0
  cases hk0
  refine (C21_pairs h' hd t _).mpr ⟨e, f, u, k', hk', hne, List.mem_append_right _ h1, List.mem_append_right _ h2, ?_, ?_⟩
  · rw [List.map_append]
    refine ⟨List.mem_append_right _ h3.mem, h3.notAfter, h3.within, fun w hw hwt => ?_⟩
    rcases List.mem_append.mp hw with hw | hw
    · obtain ⟨x, hx, rfl⟩ := List.mem_map.mp hw
      have := hl x hx _ h2
      have hp := dayNs_pos
      rcases addYears_one x.1 with e1 | e1 <;> rcases addYears_one u with e2 | e2 <;> rw [e1, e2] <;> simp only at this
      · exact .inl (by linarith)
      · exact .inl (by linarith)
      · rcases eq_or_lt_of_le this with g | g
        · exact .inr ⟨by linarith, by linarith⟩
        · exact .inl (by linarith)
      · exact .inl (by linarith)
    · exact h3.latest w hw hwt
  · field_simp

/-! ## Cases -/

/-- two more samples -/
def exampleLater : Series := [(19416 * dayNs, some 95), (19781 * dayNs, none)]

example : ((exampleYoY ++ exampleLater).map Prod.fst).Nodup ∧ (∀ p ∈ exampleYoY, ∀ q ∈ exampleLater, p.1 < q.1) ∧
    (∀ q ∈ exampleLater, ∃ p ∈ exampleYoY, p.1 + 364 * dayNs < q.1) ∧
    (yoy noFreq true 95 68 .none 30 (fun _ => []) [] exampleYoY).toOption.map (fun r => (r.renorm, r.values.length)) =
      some (some 100, 4) ∧
    (yoy noFreq true 95 68 .none 30 (fun _ => []) [] (exampleYoY ++ exampleLater)).toOption.map
      (fun r => (r.renorm, r.values.length, r.values.getLast?)) = some (some 100, 5, some (19416 * dayNs, -1)) :=
  ⟨by decide +kernel, by decide +kernel, by decide +kernel, by decide +kernel, by decide +kernel⟩

-- yearly samples, continued by two more
example : (yoy (fun _ => some (365 * dayNs)) true 95 68 .none 30 (fun _ => []) [] [(17955 * dayNs, some 1), (18320 * dayNs, some 1),
      (18685 * dayNs, some 1)]).toOption.isSome = true ∧
    (yoy (fun _ => some (365 * dayNs)) true 95 68 .none 30 (fun _ => []) [] ([(17955 * dayNs, some 1), (18320 * dayNs, some 1),
      (18685 * dayNs, some 1)] ++ [(19051 * dayNs, some 2), (19415 * dayNs, none)])).toOption.isSome = true :=
  ⟨by decide +kernel, by decide +kernel⟩

-- a sample a year before the record: one rate more, the others as they were
example : (yoy noFreq false 95 68 .none 30 (fun _ => []) [] ((17590 * dayNs, some 98) :: exampleYoY)).toOption.map (·.values) =
    some [(17955 * dayNs, 200), (18320 * dayNs, 100), (18321 * dayNs, -36500/366), (18686 * dayNs, -200),
      (19051 * dayNs, -100)] := by decide +kernel

/-- **C147 fails** for earlier samples within a day of the record: 29 February 2020, 08:00 is compared with 28 February 2021,
12:00; once a sample of 28 February 2020, 10:00 is added, that one is compared instead, and the rate at the same time differs. -/
theorem C147_within_a_day_refuted :
    (yoy noFreq false 95 68 .none 30 (fun _ => []) []
      [(18321 * dayNs + dayNs / 3, some 1), (18686 * dayNs + dayNs / 2, some 2), (19051 * dayNs + dayNs / 2, some 2)]).toOption.map
        (·.values) = some [(18686 * dayNs + dayNs / 2, 219000/2191), (19051 * dayNs + dayNs / 2, 0)] ∧
    (yoy noFreq false 95 68 .none 30 (fun _ => []) []
      [(18320 * dayNs + 5 * dayNs / 12, some 2), (18321 * dayNs + dayNs / 3, some 1), (18686 * dayNs + dayNs / 2, some 2),
        (19051 * dayNs + dayNs / 2, some 2)]).toOption.map
        (·.values) = some [(18686 * dayNs + dayNs / 2, 0), (19051 * dayNs + dayNs / 2, 0)] := by
  refine ⟨?_, ?_⟩ <;> decide +kernel

end Verif
