import Verif.Props.AvailEnergy
import Verif.Props.AvailSubsystem
import Verif.Lemmas.Quantile
import Mathlib.Data.List.Sort

/-! # Property C99, continued (rescaled expectation and the error band of the outage estimates) -/

namespace Verif
open Avail

namespace Spec
/-- normal operation: no subsystem loss, the meter and the expectation both positive -/
def Normal (i : Input) (loss : List ℚ) (k : Nat) : Prop :=
  loss[k]? = some 0 ∧ (∃ s : ℚ, i.system[k]? = some (some s) ∧ 0 < s) ∧
    ∃ e : ℚ, i.expected[k]? = some (some e) ∧ 0 < e

/-- `rows` lists the rows of normal operation in order of time -/
def NormalRows (i : Input) (loss : List ℚ) (rows : List Nat) : Prop :=
  rows.Pairwise (· < ·) ∧ ∀ k, k ∈ rows ↔ Normal i loss k

/-- total of a column over some rows -/
def totalOver (column : List Cell) (rows : List Nat) : ℚ := (rows.map fun k => (column.getD k none).getD 0).sum

/-- relative errors of the expectation over all runs of `w` consecutive rows of `rows`, where neither
series has a gap and the expectation is not zero -/
def errors (rows : List Nat) (actual expected : List Cell) (w : Nat) : List ℚ :=
  (List.range (rows.length + 1 - w)).filterMap fun s =>
    if (∀ k ∈ (rows.drop s).take w, actual.getD k none ≠ none ∧ expected.getD k none ≠ none) ∧
        totalOver expected ((rows.drop s).take w) ≠ 0
    then some (totalOver actual ((rows.drop s).take w) / totalOver expected ((rows.drop s).take w) - 1) else none

/-- `v` is read from a table of knots at `x`: linearly between neighbours, the first and the last value
outside -/
def Interpolated (tab : List (ℚ × ℚ)) (x v : ℚ) : Prop :=
  (∃ p, tab.head? = some p ∧ x ≤ p.1 ∧ v = p.2) ∨ (∃ p, tab.getLast? = some p ∧ p.1 ≤ x ∧ v = p.2) ∨
  ∃ (k : Nat) (p q : ℚ × ℚ), tab[k]? = some p ∧ tab[k + 1]? = some q ∧ p.1 ≤ x ∧ x ≤ q.1 ∧
    (v - p.2) * (q.1 - p.1) = (x - p.1) * (q.2 - p.2)
end Spec
open Spec

/-! ## selection by mask -/

theorem select_range {α : Type} (d : α) : ∀ {m : List Bool} {l : List α}, m.length = l.length →
    select m l = ((List.range l.length).filter fun k => m.getD k false).map fun k => l.getD k d := by
  intro m
  induction m with
  | nil =>
    intro l h
    have : l = [] := List.length_eq_zero_iff.mp h.symm
    subst this
    rfl
  | cons b m ih =>
    intro l h
    cases l with
    | nil => simp at h
    | cons a l =>
      have ih := ih (l := l) (by simpa using h)
      rw [List.length_cons, List.range_succ_eq_map, List.filter_cons]
      have e : ((List.map Nat.succ (List.range l.length)).filter fun k => (b :: m).getD k false).map (fun k => (a :: l).getD k d) =
          ((List.range l.length).filter fun k => m.getD k false).map fun k => l.getD k d := by
        rw [List.filter_map, List.map_map]
        rfl
      cases b with
      | true =>
        have : ((true :: m).getD 0 false) = true := rfl
        rw [if_pos this, List.map_cons, e, ← ih]
        rfl
      | false =>
        have : ¬ ((false :: m).getD 0 false) = true := by simp
        rw [if_neg this, e, ← ih]
        rfl

theorem normalMask_getD {i : Input} {loss : List ℚ} {k : Nat} :
    (normalMask i loss).getD k false = true ↔ Normal i loss k := by
  unfold normalMask Normal
  rw [List.getD_eq_getElem?_getD, List.getElem?_zipWith]
  cases h1 : loss[k]? with
  | none => simp
  | some l =>
    cases h2 : (i.system.zip i.expected)[k]? with
    | none =>
      simp only [Option.getD_none, Bool.false_eq_true, false_iff]
      rintro ⟨-, ⟨s, hs, -⟩, e, he, -⟩
      have : (i.system.zip i.expected)[k]? = some (some s, some e) := List.getElem?_zip_eq_some.mpr ⟨hs, he⟩
      rw [h2] at this
      simp at this
    | some x =>
      obtain ⟨s, e⟩ := x
      obtain ⟨hs, he⟩ := List.getElem?_zip_eq_some.mp h2
      rw [hs, he]
      simp only [Option.getD_some, Bool.and_eq_true, decide_eq_true_eq, Option.some.injEq]
      cases s <;> cases e <;> simp [cellCmp, and_assoc]

theorem normalRows_eq {i : Input} {loss : List ℚ} {rows : List Nat} (h : NormalRows i loss rows) {n : Nat}
    (hn : i.system.length ≤ n) :
    (List.range n).filter (fun k => (normalMask i loss).getD k false) = rows := by
  have hsorted : ((List.range n).filter (fun k => (normalMask i loss).getD k false)).Pairwise (· < ·) :=
    List.Pairwise.filter _ List.pairwise_lt_range
  refine List.Perm.eq_of_pairwise (le := (· < ·)) ?_ hsorted h.1 ?_
  · intro a b _ _ h1 h2
    omega
  · rw [List.perm_ext_iff_of_nodup (hsorted.imp fun h => Nat.ne_of_lt h) (h.1.imp fun h => Nat.ne_of_lt h)]
    intro k
    rw [List.mem_filter, h.2, normalMask_getD, List.mem_range]
    refine ⟨fun h => h.2, fun hk => ⟨?_, hk⟩⟩
    obtain ⟨-, ⟨s, hs, -⟩, -⟩ := hk
    exact lt_of_lt_of_le (List.getElem?_eq_some_iff.mp hs).1 hn

theorem normalMask_length {i : Input} {loss : List ℚ} {n : Nat} (h1 : loss.length = n) (h2 : i.system.length = n)
    (h3 : i.expected.length = n) : (normalMask i loss).length = n := by
  unfold normalMask
  rw [List.length_zipWith, List.length_zip, h1, h2, h3]
  simp

theorem valids_sum_map (l : List Nat) (c : List Cell) :
    (valids (l.map fun k => c.getD k none)).sum = totalOver c l := by
  unfold totalOver valids
  induction l with
  | nil => rfl
  | cons k l ih =>
    rw [List.map_cons, List.filterMap_cons, List.map_cons, List.sum_cons, ← ih]
    cases c.getD k none <;> simp

theorem energyOn_length {i : Input} {v e : List Cell} (h : energyOn i v = .ok e) : e.length = i.index.length := by
  unfold energyOn at h
  cases h1 : energyFromPower (i.index.zip v) none none .rightLabeled i.freq with
  | error x => rw [h1] at h; simp [Except.map] at h
  | ok x =>
    rw [h1] at h
    simp only [Except.map, Except.ok.injEq] at h
    rw [← h, List.length_map]

/-- the pieces of a successful computation of the error band -/
theorem errorDistributions_ok {a : Args} {i : Input} {loss : List ℚ} {d : ErrorDist}
    (h : errorDistributions a i loss = .ok d) :
    d.powerR = i.expected.map (fun x => cellDiv x (cellDiv (some (valids (select (normalMask i loss) i.expected)).sum)
      (some (valids (select (normalMask i loss) i.system)).sum))) ∧
    energyOn i d.powerR = .ok d.energyR ∧
    ∃ meter, energyOn i i.system = .ok meter ∧
      select (normalMask i loss) (meter.zip d.energyR) ≠ [] ∧
      windowLengths (select (normalMask i loss) (meter.zip d.energyR)).length ≠ [] ∧
      errorTable (select (normalMask i loss) (meter.zip d.energyR)) a.qLow
        (windowLengths (select (normalMask i loss) (meter.zip d.energyR)).length) = .ok d.lower ∧
      errorTable (select (normalMask i loss) (meter.zip d.energyR)) a.qHigh
        (windowLengths (select (normalMask i loss) (meter.zip d.energyR)).length) = .ok d.upper := by
  unfold errorDistributions at h
  simp only at h
  cases h1 : energyOn i (i.expected.map fun x => cellDiv x (cellDiv (some (valids (select (normalMask i loss) i.expected)).sum)
      (some (valids (select (normalMask i loss) i.system)).sum))) with
  | error e => rw [h1] at h; simp [Except.bind] at h
  | ok er =>
    cases h2 : energyOn i i.system with
    | error e => rw [h1, h2] at h; simp [Except.bind] at h
    | ok em =>
      rw [h1, h2] at h
      simp only [Except.bind] at h
      by_cases g1 : (select (normalMask i loss) (em.zip er)).length = 0
      · rw [if_pos g1] at h; simp at h
      · rw [if_neg g1] at h
        by_cases g2 : windowLengths (select (normalMask i loss) (em.zip er)).length = []
        · rw [if_pos g2] at h; simp at h
        · rw [if_neg g2] at h
          cases t1 : errorTable (select (normalMask i loss) (em.zip er)) a.qLow
              (windowLengths (select (normalMask i loss) (em.zip er)).length) with
          | error e => rw [t1] at h; simp at h
          | ok lower =>
            cases t2 : errorTable (select (normalMask i loss) (em.zip er)) a.qHigh
                (windowLengths (select (normalMask i loss) (em.zip er)).length) with
            | error e => rw [t1, t2] at h; simp at h
            | ok upper =>
              rw [t1, t2] at h
              simp only [Except.ok.injEq] at h
              subst h
              exact ⟨rfl, h1, em, rfl, fun e => g1 (by rw [e]; rfl), g2, t1, t2⟩

theorem totalOver_pos {c : List Cell} {rows : List Nat} (hne : rows ≠ [])
    (h : ∀ k ∈ rows, ∃ x : ℚ, c[k]? = some (some x) ∧ 0 < x) : 0 < totalOver c rows := by
  unfold totalOver
  apply List.sum_pos
  · intro y hy
    obtain ⟨k, hk, rfl⟩ := List.mem_map.mp hy
    obtain ⟨x, e, hx⟩ := h k hk
    rw [List.getD_eq_getElem?_getD, e]
    exact hx
  · simpa using hne

/-- **C99 (rescaling).** The expected power is multiplied by one positive factor, chosen so that over the rows
of normal operation it sums to the measured power. -/
theorem C99_rescaled {a : Args} {i : Input} {loss : List ℚ} {d : ErrorDist} (h : errorDistributions a i loss = .ok d)
    (h0 : loss.length = i.index.length) (h1 : i.system.length = i.index.length) (h2 : i.expected.length = i.index.length)
    {rows : List Nat} (hr : NormalRows i loss rows) :
    ∃ c : ℚ, 0 < c ∧ d.powerR = i.expected.map (fun x => x.map (c * ·)) ∧ totalOver d.powerR rows = totalOver i.system rows := by
  obtain ⟨hp, -, meter, hm, hne, -, -, -⟩ := errorDistributions_ok h
  have hml := normalMask_length h0 h1 h2
  have s1 : select (normalMask i loss) i.expected = rows.map fun k => i.expected.getD k none := by
    rw [select_range none (hml.trans h2.symm), normalRows_eq hr (by omega)]
  have s2 : select (normalMask i loss) i.system = rows.map fun k => i.system.getD k none := by
    rw [select_range none (hml.trans h1.symm), normalRows_eq hr (by omega)]
  rw [s1, s2, valids_sum_map, valids_sum_map] at hp
  have hrne : rows ≠ [] := by
    intro e
    apply hne
    have he := (errorDistributions_ok h).2.1
    rw [select_range (none, none) (by rw [hml, List.length_zip, energyOn_length hm, energyOn_length he, Nat.min_self])]
    rw [normalRows_eq hr (by rw [List.length_zip, energyOn_length hm, energyOn_length he, Nat.min_self]; omega), e]
    rfl
  have pe : 0 < totalOver i.expected rows := totalOver_pos hrne fun k hk => ((hr.2 k).mp hk).2.2
  have ps : 0 < totalOver i.system rows := totalOver_pos hrne fun k hk => ((hr.2 k).mp hk).2.1
  refine ⟨totalOver i.system rows / totalOver i.expected rows, div_pos ps pe, ?_, ?_⟩
  · rw [hp]
    apply List.map_congr_left
    intro x _
    cases x with
    | none => rfl
    | some x =>
      have : totalOver i.expected rows / totalOver i.system rows ≠ 0 := (div_pos pe ps).ne'
      simp only [cellDiv, Option.bind_some, if_neg ps.ne', if_neg this, Option.map_some, Option.some.injEq]
      field_simp
  · have key : ∀ E S : ℚ, 0 < E → 0 < S → totalOver (i.expected.map fun x => cellDiv x (cellDiv (some E) (some S))) rows =
        totalOver i.expected rows * (S / E) := by
      intro E S hE hS
      unfold totalOver
      rw [← sum_map_mul_const]
      congr 1
      apply List.map_congr_left
      intro k hk
      obtain ⟨x, e, -⟩ := ((hr.2 k).mp hk).2.2
      have : E / S ≠ 0 := (div_pos hE hS).ne'
      rw [List.getD_eq_getElem?_getD, List.getElem?_map, List.getD_eq_getElem?_getD, e]
      simp only [cellDiv, Option.bind_some, if_neg hS.ne', if_neg this, Option.map_some, Option.getD_some]
      field_simp
    rw [hp, key _ _ pe ps]
    field_simp

/-! ## the table of errors -/

theorem strictSum_map (rows : List Nat) (c : List Cell) :
    strictSum (rows.map fun k => c.getD k none) =
      if ∀ k ∈ rows, c.getD k none ≠ none then some (totalOver c rows) else none := by
  unfold totalOver strictSum
  induction rows with
  | nil => simp
  | cons k l ih =>
    rw [List.map_cons, List.foldr_cons, ih]
    cases hk : c.getD k none with
    | none =>
      have : ¬ ∀ k' ∈ k :: l, c.getD k' none ≠ none := fun h => h k (by simp) hk
      rw [if_neg this]
      rfl
    | some x =>
      by_cases h : ∀ k' ∈ l, c.getD k' none ≠ none
      · have : ∀ k' ∈ k :: l, c.getD k' none ≠ none := by
          intro k' hk'
          rcases List.mem_cons.mp hk' with rfl | hk'
          · rw [hk]; simp
          · exact h k' hk'
        rw [if_pos h, if_pos this, List.map_cons, List.sum_cons, hk]
        rfl
      · have : ¬ ∀ k' ∈ k :: l, c.getD k' none ≠ none := fun h' => h fun k' hk' => h' k' (by simp [hk'])
        rw [if_neg h, if_neg this]
        rfl

theorem windowErrors_map (rows : List Nat) (m e : List Cell) (w : Nat) :
    windowErrors w (rows.map fun k => (m.getD k none, e.getD k none)) = errors rows m e w := by
  unfold windowErrors errors windows valids
  rw [List.map_map, List.filterMap_map, List.length_map]
  apply List.filterMap_congr
  intro s _
  simp only [Function.comp]
  rw [← List.map_drop, ← List.map_take, List.map_map, List.map_map]
  generalize (rows.drop s).take w = l
  have e1 : (l.map (Prod.fst ∘ fun k => (m.getD k none, e.getD k none))) = l.map fun k => m.getD k none := rfl
  have e2 : (l.map (Prod.snd ∘ fun k => (m.getD k none, e.getD k none))) = l.map fun k => e.getD k none := rfl
  rw [e1, e2, strictSum_map, strictSum_map]
  by_cases h1 : ∀ k ∈ l, m.getD k none ≠ none
  · by_cases h2 : ∀ k ∈ l, e.getD k none ≠ none
    · by_cases h3 : totalOver e l = 0
      · rw [if_pos h1, if_pos h2, if_neg (fun h => h.2 h3)]
        simp [cellDiv, h3]
      · rw [if_pos h1, if_pos h2, if_pos ⟨fun k hk => ⟨h1 k hk, h2 k hk⟩, h3⟩]
        simp [cellDiv, h3]
    · rw [if_pos h1, if_neg h2, if_neg (fun h => h2 fun k hk => (h.1 k hk).2)]
      rfl
  · have h3 : ¬ ((∀ k ∈ l, m.getD k none ≠ none ∧ e.getD k none ≠ none) ∧ totalOver e l ≠ 0) :=
      fun h => h1 fun k hk => (h.1 k hk).1
    rw [if_neg h1, if_neg h3]
    rfl

theorem forall₂_mem_left {α β : Type} {R : α → β → Prop} {l : List α} {r : List β} (h : List.Forall₂ R l r)
    {x : α} (hx : x ∈ l) : ∃ y ∈ r, R x y := by
  induction h with
  | nil => simp at hx
  | cons hr _ ih =>
    rcases List.mem_cons.mp hx with rfl | hx
    · exact ⟨_, by simp, hr⟩
    · obtain ⟨y, hy, h⟩ := ih hx
      exact ⟨y, by simp [hy], h⟩

theorem errorTable_mem {rows : List (Cell × Cell)} {q : ℚ} {ws : List Nat} {t : List (ℚ × ℚ)}
    (h : errorTable rows q ws = .ok t) (x v : ℚ) :
    (x, v) ∈ t ↔ ∃ w ∈ ws, x = (w : ℚ) ∧ quantileE (windowErrors w rows) q = .ok (some v) := by
  unfold errorTable at h
  cases hm : ws.mapM (fun w => (quantileE (windowErrors w rows) q).map fun v => v.map fun x => ((w : ℚ), x)) with
  | error e => rw [hm] at h; simp [Except.map] at h
  | ok l =>
    rw [hm] at h
    simp only [Except.map, Except.ok.injEq] at h
    have hf := exceptMapM_ok hm
    rw [← h, List.mem_filterMap]
    constructor
    · rintro ⟨o, ho, e⟩
      obtain ⟨w, hw, hq⟩ := forall₂_mem_right hf ho
      cases hv : quantileE (windowErrors w rows) q with
      | error e' => rw [hv] at hq; simp [Except.map] at hq
      | ok v' =>
        rw [hv] at hq
        simp only [Except.map, Except.ok.injEq] at hq
        simp only [id_eq] at e
        rw [e] at hq
        cases v' with
        | none => simp at hq
        | some y =>
          simp only [Option.map_some, Option.some.injEq, Prod.mk.injEq] at hq
          exact ⟨w, hw, hq.1.symm, by rw [hv, hq.2]⟩
    · rintro ⟨w, hw, rfl, hv⟩
      obtain ⟨o, ho, hq⟩ := forall₂_mem_left hf hw
      rw [hv] at hq
      simp only [Except.map, Option.map_some, Except.ok.injEq] at hq
      exact ⟨o, ho, hq.symm⟩

theorem errorTable_level {rows : List (Cell × Cell)} {q : ℚ} {ws : List Nat} {t : List (ℚ × ℚ)}
    (h : errorTable rows q ws = .ok t) {w : Nat} (hw : w ∈ ws) : 0 ≤ q ∧ q ≤ 1 := by
  unfold errorTable at h
  cases hm : ws.mapM (fun w => (quantileE (windowErrors w rows) q).map fun v => v.map fun x => ((w : ℚ), x)) with
  | error e => rw [hm] at h; simp [Except.map] at h
  | ok l =>
    obtain ⟨o, -, hq⟩ := forall₂_mem_left (exceptMapM_ok hm) hw
    cases hv : quantileE (windowErrors w rows) q with
    | error e' => rw [hv] at hq; simp [Except.map] at hq
    | ok v' => exact ⟨(quantileE_ok hv).1, (quantileE_ok hv).2.1⟩

theorem mem_windowLengths {n : Nat} {w : Nat} (hn : n ≠ 0) :
    w ∈ windowLengths n ↔ ∃ j, 1 ≤ j ∧ 2 ^ (j + 1) ≤ n ∧ w = 2 ^ j := by
  unfold windowLengths
  simp only [List.mem_map, List.mem_range]
  constructor
  · rintro ⟨k, hk, rfl⟩
    exact ⟨k + 1, by omega, (Nat.le_log2 hn).mp (by omega), rfl⟩
  · rintro ⟨j, hj, hle, rfl⟩
    have := (Nat.le_log2 hn).mpr hle
    exact ⟨j - 1, by omega, by congr 1; omega⟩

/-- **C99 (error table).** The bounds of the relative error are tabulated for the window lengths 2, 4, 8, …
up to half the number of normal rows: each is the requested quantile of the errors of the rescaled
expectation over all windows of that many consecutive normal rows. -/
theorem C99_error_table {a : Args} {i : Input} {loss : List ℚ} {d : ErrorDist} (h : errorDistributions a i loss = .ok d)
    (h0 : loss.length = i.index.length) (h1 : i.system.length = i.index.length) (h2 : i.expected.length = i.index.length)
    {rows : List Nat} (hr : NormalRows i loss rows) :
    ∃ meter, energyOn i i.system = .ok meter ∧ energyOn i d.powerR = .ok d.energyR ∧
      (∀ x v : ℚ, (x, v) ∈ d.lower ↔ ∃ j, 1 ≤ j ∧ 2 ^ (j + 1) ≤ rows.length ∧ x = 2 ^ j ∧
        IsQuantile (errors rows meter d.energyR (2 ^ j)) a.qLow v) ∧
      (∀ x v : ℚ, (x, v) ∈ d.upper ↔ ∃ j, 1 ≤ j ∧ 2 ^ (j + 1) ≤ rows.length ∧ x = 2 ^ j ∧
        IsQuantile (errors rows meter d.energyR (2 ^ j)) a.qHigh v) ∧
      0 ≤ a.qLow ∧ a.qLow ≤ 1 ∧ 0 ≤ a.qHigh ∧ a.qHigh ≤ 1 := by
  obtain ⟨-, he, meter, hm, hne, hwl, hl, hu⟩ := errorDistributions_ok h
  have hml := normalMask_length h0 h1 h2
  have hs : select (normalMask i loss) (meter.zip d.energyR) = rows.map fun k => (meter.getD k none, d.energyR.getD k none) := by
    rw [select_range (none, none) (by rw [hml, List.length_zip, energyOn_length hm, energyOn_length he, Nat.min_self]),
      normalRows_eq hr (by rw [List.length_zip, energyOn_length hm, energyOn_length he, Nat.min_self]; omega)]
    apply List.map_congr_left
    intro k hk
    obtain ⟨-, ⟨s, e, -⟩, -⟩ := (hr.2 k).mp hk
    have hk' := (List.getElem?_eq_some_iff.mp e).1
    have l1 : k < meter.length := by rw [energyOn_length hm]; omega
    have l2 : k < d.energyR.length := by rw [energyOn_length he]; omega
    rw [List.getD_eq_getElem?_getD, List.getD_eq_getElem?_getD, List.getD_eq_getElem?_getD,
      List.getElem?_eq_getElem l1, List.getElem?_eq_getElem l2,
      List.getElem?_eq_getElem (by rw [List.length_zip]; omega)]
    simp
  rw [hs] at hne hwl hl hu
  rw [List.length_map] at hwl hl hu
  have hrne : rows.length ≠ 0 := by
    intro e
    exact hne (by rw [List.length_eq_zero_iff.mp e]; rfl)
  have key : ∀ q : ℚ, ∀ t : List (ℚ × ℚ), errorTable (rows.map fun k => (meter.getD k none, d.energyR.getD k none)) q
      (windowLengths rows.length) = .ok t →
      (∀ x v : ℚ, (x, v) ∈ t ↔ ∃ j, 1 ≤ j ∧ 2 ^ (j + 1) ≤ rows.length ∧ x = 2 ^ j ∧
        IsQuantile (errors rows meter d.energyR (2 ^ j)) q v) ∧ 0 ≤ q ∧ q ≤ 1 := by
    intro q t ht
    have hq : 0 ≤ q ∧ q ≤ 1 := by
      obtain ⟨w, hw⟩ := List.exists_mem_of_ne_nil _ hwl
      exact errorTable_level ht hw
    refine ⟨fun x v => ?_, hq⟩
    rw [errorTable_mem ht]
    have hqe : ∀ l : List ℚ, quantileE l q = .ok (some v) ↔ IsQuantile l q v := by
      intro l
      rw [isQuantile_iff hq.1 hq.2]
      unfold quantileE
      rw [if_neg (by rintro (h | h) <;> linarith [hq.1, hq.2]), Except.ok.injEq]
    simp only [hqe, windowErrors_map]
    constructor
    · rintro ⟨w, hw, rfl, hv⟩
      obtain ⟨j, h1, h2, rfl⟩ := (mem_windowLengths hrne).mp hw
      exact ⟨j, h1, h2, by push_cast; rfl, hv⟩
    · rintro ⟨j, h1, h2, rfl, hv⟩
      exact ⟨2 ^ j, (mem_windowLengths hrne).mpr ⟨j, h1, h2, rfl⟩, by push_cast; rfl, hv⟩
  obtain ⟨k1, k2, k3⟩ := key _ _ hl
  obtain ⟨k4, k5, k6⟩ := key _ _ hu
  exact ⟨meter, hm, he, k1, k4, k2, k3, k5, k6⟩

/-! ## the bounds of one outage -/

theorem interp1d_interpolated : ∀ {tab : List (ℚ × ℚ)} {x v : ℚ}, (tab.map Prod.fst).Pairwise (· < ·) →
    interp1d tab x = some v → Interpolated tab x v := by
  intro tab
  induction tab with
  | nil => intro x v _ h; simp [interp1d] at h
  | cons p l ih =>
    intro x v hs h
    obtain ⟨x0, y0⟩ := p
    cases l with
    | nil =>
      simp only [interp1d, Option.some.injEq] at h
      rcases le_total x x0 with hx | hx
      · exact Or.inl ⟨(x0, y0), rfl, hx, h.symm⟩
      · exact Or.inr (Or.inl ⟨(x0, y0), rfl, hx, h.symm⟩)
    | cons q l =>
      obtain ⟨x1, y1⟩ := q
      have hlt : x0 < x1 := by
        rw [List.map_cons, List.pairwise_cons] at hs
        exact hs.1 x1 (by simp)
      have hs' : (((x1, y1) :: l).map Prod.fst).Pairwise (· < ·) := by
        rw [List.map_cons, List.pairwise_cons] at hs
        exact hs.2
      simp only [interp1d] at h
      by_cases h0 : x ≤ x0
      · rw [if_pos h0, Option.some.injEq] at h
        exact Or.inl ⟨(x0, y0), rfl, h0, h.symm⟩
      · rw [if_neg h0] at h
        by_cases h1 : x ≤ x1
        · rw [if_pos h1, Option.some.injEq] at h
          refine Or.inr (Or.inr ⟨0, (x0, y0), (x1, y1), rfl, rfl, (not_le.mp h0).le, h1, ?_⟩)
          rw [← h]
          have : x1 - x0 ≠ 0 := by linarith
          simp only
          field_simp
          ring
        · rw [if_neg h1] at h
          rcases ih hs' h with ⟨p, hp, hx, -⟩ | ⟨p, hp, hx, hv⟩ | ⟨k, p, q, hp, hq, a1, a2, a3⟩
          · rw [List.head?_cons, Option.some.injEq] at hp
            subst hp
            exact absurd hx h1
          · exact Or.inr (Or.inl ⟨p, by rw [List.getLast?_cons_cons]; exact hp, hx, hv⟩)
          · exact Or.inr (Or.inr ⟨k + 1, p, q, hp, hq, a1, a2, a3⟩)

theorem normalRows_exists (i : Input) (loss : List ℚ) : ∃ rows, NormalRows i loss rows := by
  refine ⟨(List.range i.system.length).filter (fun k => (normalMask i loss).getD k false), ?_, fun k => ?_⟩
  · exact List.Pairwise.filter _ List.pairwise_lt_range
  · rw [List.mem_filter, normalMask_getD, List.mem_range]
    refine ⟨fun h => h.2, fun hk => ⟨?_, hk⟩⟩
    obtain ⟨-, ⟨s, hs, -⟩, -⟩ := hk
    exact (List.getElem?_eq_some_iff.mp hs).1

open Classical in
theorem filter_slice_length {l : List Cell} {q : Nat → Prop} {p : Cell → Bool} {s : Nat}
    (hq : ∀ k, q k ↔ ∃ x, l[k]? = some x ∧ p x = true) (n : Nat) :
    (((l.drop s).take n).filter p).length = ((List.range n).filter fun j => q (s + j)).length := by
  induction n with
  | zero => rfl
  | succ n ih =>
    rw [List.take_add_one, List.filter_append, List.length_append, ih, List.range_succ, List.filter_append,
      List.length_append, List.getElem?_drop]
    congr 1
    cases h : l[s + n]? with
    | none =>
      have : ¬ q (s + n) := by rw [hq, h]; simp
      simp [this]
    | some x =>
      by_cases hp : p x = true
      · have : q (s + n) := (hq _).mpr ⟨x, h, hp⟩
        simp [this, hp]
      · have : ¬ q (s + n) := by
          rw [hq, h]
          rintro ⟨y, e, hy⟩
          cases e
          exact hp hy
        simp [this, hp]

open Classical in
/-- **C99 (bounds of an outage).** The error bounds of an outage are read from the two tables at the number of
its rows with positive expected power, and the reported energy bounds apply them to its expected energy. -/
theorem C99_outage_bounds {a : Args} {i : Input} {loss : List ℚ} {mask : List (List Bool)} {d : ErrorDist}
    {outs : List Outage} (hd : errorDistributions a i loss = .ok d) (h0 : loss.length = i.index.length)
    (h1 : i.system.length = i.index.length) (h2 : i.expected.length = i.index.length)
    (h : outageInfo i mask d = .ok outs) {o : Outage} (ho : o ∈ outs) :
    o.daylight = ((List.range (o.last - o.first + 1)).filter fun j : Nat => Daylight i.expected (o.first + j)).length ∧
    Interpolated d.lower o.daylight o.errorLower ∧ Interpolated d.upper o.daylight o.errorUpper ∧
    o.ciLower = (1 + o.errorLower) * o.expected ∧ o.ciUpper = (1 + o.errorUpper) * o.expected := by
  obtain ⟨-, -, hdl, hlo, hup, -, -, -, -, hc1, hc2⟩ := outageRecord_ok (outageInfo_mem h ho)
  obtain ⟨rows, hr⟩ := normalRows_exists i loss
  obtain ⟨c, hc, hp, -⟩ := C99_rescaled hd h0 h1 h2 hr
  obtain ⟨-, -, meter, -, -, -, t1, t2⟩ := errorDistributions_ok hd
  refine ⟨?_, interp1d_interpolated ?_ hlo, interp1d_interpolated ?_ hup, hc1, hc2⟩
  · rw [hdl]
    unfold slice
    apply filter_slice_length
    intro k
    unfold Daylight
    rw [hp, List.getElem?_map]
    constructor
    · rintro ⟨x, e, hx⟩
      refine ⟨some (c * x), by rw [e]; rfl, ?_⟩
      simpa [cellCmp] using mul_pos hc hx
    · rintro ⟨y, e, hy⟩
      cases hx : i.expected[k]? with
      | none => rw [hx] at e; simp at e
      | some x =>
        rw [hx, Option.map_some, Option.some.injEq] at e
        cases x with
        | none => rw [← e] at hy; simp [cellCmp] at hy
        | some x =>
          rw [← e] at hy
          simp only [Option.map_some, cellCmp, decide_eq_true_eq] at hy
          exact ⟨x, rfl, (mul_pos_iff_of_pos_left hc).mp hy⟩
  · exact (errorTable_mono (le_refl _) t1 t1).2.2.2 (windowLengths_sorted _)
  · exact (errorTable_mono (le_refl _) t2 t2).2.2.2 (windowLengths_sorted _)

/-- nine hourly rows with an outage in the sixth and seventh -/
def exBand : Input :=
  { index := (List.range 9).map fun k : Nat => (k : Int) * 3600000000000
    freq := none
    system := [some 2, some 1, some 3, some 1, some 2, some 0, some 0, some 3, some 1]
    ncols := 1
    subs := [[some 2], [some 1], [some 3], [some 1], [some 2], [none], [none], [some 3], [some 1]]
    cum := [some 10, some 11, some 12, some 13, some 14, none, some 15, some 16, some 17]
    expected := [some 4, some 3, some 5, some 2, some 4, some 2, some 2, some 5, some 4] }

example : (errorDistributions exA_args exBand (lossSubsystem exA_args exBand).loss).map (fun d => (d.lower, d.upper)) =
    .ok ([(2, -47 / 650)], [(2, 422 / 2275)]) := by decide +kernel
example : ((lossSubsystem exA_args exBand).loss.length = 9 ∧ exBand.system.length = 9 ∧ exBand.expected.length = 9) ∧
    (List.range 9).filter (fun k => (normalMask exBand (lossSubsystem exA_args exBand).loss).getD k false) =
      [0, 1, 2, 3, 4, 7, 8] := by decide +kernel
example : errors [0, 1, 2, 3, 4, 7, 8] [none, some 1, some 3, some 1, some 2, some 0, some 0, some 3, some 1]
    [none, some (13 / 9), some (65 / 27), some (26 / 27), some (52 / 27), some (26 / 27), some (26 / 27), some (65 / 27),
      some (52 / 27)] 2 = [1 / 26, 17 / 91, 1 / 26, 2 / 13, -1 / 13] := by decide +kernel
example : ((errorDistributions exA_args exBand (lossSubsystem exA_args exBand).loss).bind fun d =>
    (outageInfo exBand (lossSubsystem exA_args exBand).mask d).map fun l => l.map fun o => (o.first, o.last, o.daylight, o.errorLower)) =
    .ok [(5, 6, 2, -47 / 650)] := by decide +kernel

end Verif
