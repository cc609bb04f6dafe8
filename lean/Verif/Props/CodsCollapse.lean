import Verif.Lemmas.CodsCollapse

/-! # Property C44 (collapsing of cleaning events) -/

namespace Verif.Cods

open Verif Spec

theorem rest_init (cand : List Bool) {f : Nat} (hf : 0 < f) :
    Rest (getB cand) (setRange (setRange cand 0 (f - 1) false) (cand.length - f) cand.length false) f (cand.length - f) := by
  intro i
  rw [getB_setRange, getB_setRange, length_setRange]
  by_cases h : f ≤ i ∧ i < cand.length - f
  · rw [if_pos h, if_pos (by omega), if_neg (by omega), if_pos (by omega), if_neg (by omega)]
  · rw [if_neg h]
    by_cases hl : i < cand.length
    · rw [if_pos hl]
      by_cases h1 : i < f
      · by_cases h2 : cand.length - f ≤ i ∧ i ≤ cand.length
        · rw [if_pos h2]
        · rw [if_neg h2, if_pos hl, if_pos (by omega)]
      · rw [if_pos (by omega)]
    · rw [if_neg hl]

/-- outcome of every call with a window that fits: the exact set of events, or `ValueError`; the loop always ends -/
theorem collapse_spec {cand : List Bool} {metric : List Cell} {f : Nat} (hm : metric.length = cand.length) (hf : 0 < f)
    (hn : 2 * f < cand.length) :
    (collapse cand metric f = .error .valueError ∨
      ∃ L res, collapse cand metric f = .ok res ∧ Islands (getB cand) f (cand.length - f) f L ∧
        res.length = cand.length ∧ ∀ j, getB res j = true ↔ Event (cellAt metric) f L j) ∧
    ((∀ i, f ≤ i → i < cand.length - f → getB cand i = true → (cellAt metric i).isSome) →
      collapse cand metric f ≠ .error .valueError) := by
  have key := collapseLoop_spec (metric := metric) (c := getB cand) hf hn (cand.length + 1) f
    (setRange (setRange cand 0 (f - 1) false) (cand.length - f) cand.length false)
    (List.replicate cand.length false) _ (by rw [length_setRange, length_setRange]) (by simp) le_rfl (rest_init cand hf)
    (.inr rfl) (by omega)
  have e : collapse cand metric f = collapseLoop metric f (cand.length - f) (cand.length + 1)
      (setRange (setRange cand 0 (f - 1) false) (cand.length - f) cand.length false)
      (List.replicate cand.length false)
      (idxmaxB (setRange (setRange cand 0 (f - 1) false) (cand.length - f) cand.length false) f (cand.length - f)) := by
    unfold collapse
    rw [if_neg (by omega), if_neg (by omega)]
  rw [e]
  refine ⟨?_, key.2⟩
  rcases key.1 with h | ⟨L, res, h1, h2, h3, h4⟩
  · exact .inl h
  · refine .inr ⟨L, res, h1, h2, h3, fun j => ?_⟩
    rw [h4 j]
    constructor
    · rintro (h | ⟨h, -⟩)
      · exact h
      · unfold getB at h
        rw [List.getD_eq_getElem?_getD, List.getElem?_replicate] at h
        split_ifs at h <;> cases h
    · exact .inl

/-- the events reported are exactly the best days of the islands of candidate days that are not in the window of a later
island -/
theorem C44_exact {cand : List Bool} {metric : List Cell} {f : Nat} {res : List Bool}
    (h : collapse cand metric f = .ok res) :
    res.length = cand.length ∧ ∃ L, Islands (getB cand) f (cand.length - f) f L ∧
      ∀ j, getB res j = true ↔ Event (cellAt metric) f L j := by
  by_cases hm : metric.length = cand.length
  · by_cases hf : f = 0 ∨ cand.length ≤ 2 * f
    · unfold collapse at h; rw [if_neg (not_not_intro hm), if_pos hf] at h; cases h
    · rcases (collapse_spec (f := f) hm (by omega) (by omega)).1 with h1 | ⟨L, r, h1, h2, h3, h4⟩
      · rw [h1] at h; cases h
      · rw [h1] at h; cases h; exact ⟨h3, L, h2, h4⟩
  · unfold collapse at h; rw [if_pos hm] at h; cases h

/-- the loop ends on every input: the result is a series or `ValueError` -/
theorem C44_terminates (cand : List Bool) (metric : List Cell) (f : Nat) :
    collapse cand metric f = .error .valueError ∨ ∃ res, collapse cand metric f = .ok res := by
  by_cases hm : metric.length = cand.length
  · by_cases hf : f = 0 ∨ cand.length ≤ 2 * f
    · left; unfold collapse; rw [if_neg (not_not_intro hm), if_pos hf]
    · rcases (collapse_spec (f := f) hm (by omega) (by omega)).1 with h1 | ⟨L, r, h1, -⟩
      · exact .inl h1
      · exact .inr ⟨r, h1⟩
  · left; unfold collapse; rw [if_pos hm]

/-- the call succeeds when the window fits and the metric is present on the candidate days -/
theorem C44_succeeds {cand : List Bool} {metric : List Cell} {f : Nat} (hm : metric.length = cand.length) (hf : 0 < f)
    (hn : 2 * f < cand.length)
    (hp : ∀ i, f ≤ i → i < cand.length - f → getB cand i = true → (cellAt metric i).isSome) :
    ∃ res, collapse cand metric f = .ok res := by
  rcases C44_terminates cand metric f with h | h
  · exact absurd h ((collapse_spec hm hf hn).2 hp)
  · exact h

theorem islands_mem {c : Nat → Bool} {f hi lo : Nat} {L : List (Nat × Nat)} (h : Islands c f hi lo L) :
    ∀ p ∈ L, lo ≤ p.1 ∧ p.1 ≤ p.2 ∧ p.2 + 1 < hi ∧ ∀ i, p.1 ≤ i → i ≤ p.2 → c i = true := by
  induction h with
  | none => intro p hp; cases hp
  | atEnd => intro p hp; cases hp
  | cons g0 g1 g2 g3 g4 g5 g6 ih =>
    intro p hp
    rcases List.mem_cons.mp hp with rfl | hp
    · exact ⟨g0, g1, g2, g4⟩
    · obtain ⟨a, b, c, d⟩ := ih p hp
      exact ⟨by omega, b, c, d⟩

/-- every event lies within `f` days of a candidate day -/
theorem C44_near {cand : List Bool} {metric : List Cell} {f : Nat} {res : List Bool}
    (h : collapse cand metric f = .ok res) {j : Nat} (hj : getB res j = true) :
    ∃ i, getB cand i = true ∧ j ≤ i + f ∧ i ≤ j + f := by
  obtain ⟨-, L, hL, hev⟩ := C44_exact h
  obtain ⟨L1, s, e, L2, rfl, ⟨h1, h2, -⟩, -⟩ := (hev j).mp hj
  obtain ⟨a, b, -, d⟩ := islands_mem hL (s, e) (by simp)
  simp only at a b d
  rcases lt_or_ge j s with hs | hs
  · exact ⟨s, d s le_rfl b, by omega, by omega⟩
  · rcases lt_or_ge e j with he | he
    · exact ⟨e, d e b le_rfl, by omega, by omega⟩
    · exact ⟨j, d j hs he, by omega, by omega⟩

/-- without candidate days there are no events -/
theorem C44_none {cand : List Bool} {metric : List Cell} {f : Nat} {res : List Bool}
    (h : collapse cand metric f = .ok res) (hc : ∀ i, getB cand i = false) : ∀ j, getB res j = false := by
  intro j
  cases hj : getB res j with
  | false => rfl
  | true =>
    obtain ⟨i, hi, -⟩ := C44_near h hj
    rw [hc i] at hi; cases hi

/-! ### Number of events -/

theorem runs_append (u v : List Bool) : runs false v ≤ runs false (u ++ v) ∧ runs false v ≤ runs true (u ++ v) + 1 := by
  induction u with
  | nil =>
    refine ⟨le_rfl, ?_⟩
    cases v with
    | nil => simp [runs]
    | cons b v => cases b <;> simp [runs]; omega
  | cons b u ih =>
    cases b
    · simp only [List.cons_append, runs, Bool.false_and, Bool.false_eq_true, if_false, Nat.zero_add]
      exact ⟨ih.1, by omega⟩
    · simp only [List.cons_append, runs, Bool.true_and, Bool.not_false, if_true, Bool.not_true, Bool.false_eq_true,
        if_false, Nat.zero_add]
      exact ⟨by omega, ih.2⟩

/-- the candidates from position `lo`, in order -/
def window (c : Nat → Bool) (lo k : Nat) : List Bool := (List.range k).map fun i => c (lo + i)

theorem window_append (c : Nat → Bool) (lo a b : Nat) : window c lo (a + b) = window c lo a ++ window c (lo + a) b := by
  unfold window
  rw [List.range_add, List.map_append, List.map_map]
  congr 1
  apply List.map_congr_left
  intro i _
  simp [Nat.add_assoc]

theorem islands_le_runs {c : Nat → Bool} {f hi lo : Nat} {L : List (Nat × Nat)} (h : Islands c f hi lo L) :
    L.length ≤ runs false (window c lo (hi - lo)) := by
  induction h with
  | none => simp
  | atEnd => simp
  | @cons lo s e L g0 g1 g2 g3 g4 g5 g6 ih =>
    have e1 : hi - lo = (s - lo) + (1 + ((e - s) + (1 + (hi - (e + 2))))) := by omega
    rw [e1, window_append, window_append c _ 1, window_append c _ (e - s), window_append c _ 1]
    have w1 : window c (lo + (s - lo)) 1 = [true] := by
      have : lo + (s - lo) = s := by omega
      rw [this]
      simp [window, g4 s le_rfl g1]
    have w3 : window c (lo + (s - lo) + 1 + (e - s)) 1 = [false] := by
      have : lo + (s - lo) + 1 + (e - s) = e + 1 := by omega
      rw [this]
      simp [window, g5]
    have w4 : lo + (s - lo) + 1 + (e - s) + 1 = e + 2 := by omega
    rw [w1, w3, w4]
    have a1 := (runs_append (window c lo (s - lo)) ([true] ++ (window c (lo + (s - lo) + 1) (e - s) ++
      ([false] ++ window c (e + 2) (hi - (e + 2)))))).1
    refine le_trans ?_ a1
    simp only [List.singleton_append, runs, Bool.not_false, Bool.and_self, if_true, List.length_cons]
    have a2 : ∀ u : List Bool, ∀ b v, runs b (false :: v) ≤ runs b (u ++ false :: v) := by
      intro u
      induction u with
      | nil => intro b v; exact le_rfl
      | cons x u ihu =>
        intro b v
        have h1 := ihu x v
        simp only [List.cons_append, runs, Bool.false_and, Bool.false_eq_true, if_false, Nat.zero_add] at h1 ⊢
        omega
    have a3 := a2 (window c (lo + (s - lo) + 1) (e - s)) true (window c (e + 2) (hi - (e + 2)))
    have a4 : runs true (false :: window c (e + 2) (hi - (e + 2))) = runs false (window c (e + 2) (hi - (e + 2))) := by
      simp [runs]
    rw [a4] at a3
    have a5 : runs false (window c (e + f + 1) (hi - (e + f + 1))) ≤ runs false (window c (e + 2) (hi - (e + 2))) ∨
        runs false (window c (e + f + 1) (hi - (e + f + 1))) = 0 ∨ f = 0 := by
      rcases Nat.eq_zero_or_pos f with h0 | hf
      · exact .inr (.inr h0)
      · rcases le_or_gt (e + f + 1) hi with hh | hh
        · left
          have : hi - (e + 2) = (f - 1) + (hi - (e + f + 1)) := by omega
          rw [this, window_append]
          have e2 : e + 2 + (f - 1) = e + f + 1 := by omega
          rw [e2]
          exact (runs_append _ _).1
        · right; left
          have : hi - (e + f + 1) = 0 := by omega
          rw [this]; rfl
    rcases a5 with a5 | a5 | a5
    · omega
    · omega
    · subst a5
      have w : window c (e + 0 + 1) (hi - (e + 0 + 1)) = false :: window c (e + 2) (hi - (e + 2)) := by
        have : hi - (e + 0 + 1) = 1 + (hi - (e + 2)) := by omega
        rw [this, window_append]
        simp [window, g5]
      rw [w] at ih
      simp only [runs, Bool.false_and, Bool.false_eq_true, if_false, Nat.zero_add] at ih
      omega

theorem runs_drop (k : Nat) (l : List Bool) : runs false (l.drop k) ≤ runs false l := by
  have := (runs_append (l.take k) (l.drop k)).1
  rwa [List.take_append_drop] at this

theorem runs_prefix (b : Bool) (u v : List Bool) : runs b u ≤ runs b (u ++ v) := by
  induction u generalizing b with
  | nil => simp [runs]
  | cons x u ih => simp only [List.cons_append, runs]; have := ih x; omega

/-- there are never more events than runs of candidate days -/
theorem C44_count {cand : List Bool} {metric : List Cell} {f : Nat} {res : List Bool}
    (h : collapse cand metric f = .ok res) : res.count true ≤ runs false cand := by
  obtain ⟨hlen, L, hL, hev⟩ := C44_exact h
  have h1 : L.length ≤ runs false cand := by
    refine (islands_le_runs hL).trans ?_
    have e : window (getB cand) f (cand.length - f - f) = (cand.drop f).take (cand.length - f - f) := by
      apply List.ext_getElem
      · simp [window]
      · intro i h1 h2
        simp only [window, List.length_map, List.length_range] at h1
        simp only [window, List.getElem_map, List.getElem_range, List.getElem_take, List.getElem_drop, getB]
        rw [List.getD_eq_getElem?_getD, List.getElem?_eq_getElem (by omega)]; rfl
    rw [e]
    refine (runs_prefix false _ ((cand.drop f).drop (cand.length - f - f))).trans ?_
    rw [List.take_append_drop]
    exact runs_drop f cand
  have h2 : res.count true ≤ L.length := by
    classical
    have e : res.count true = ((List.range res.length).filter fun i => getB res i).length := by
      clear h hlen hev
      induction res with
      | nil => rfl
      | cons b r ih =>
        rw [List.length_cons, List.range_succ_eq_map, List.filter_cons, List.count_cons, ih]
        have : ((List.map Nat.succ (List.range r.length)).filter fun i => getB (b :: r) i).length =
            ((List.range r.length).filter fun i => getB r i).length := by
          rw [List.filter_map, List.length_map]; rfl
        cases b <;> simp [getB] at this ⊢ <;> rw [this]
    rw [e]
    let pick : Nat × Nat → Option Nat := fun p =>
      if hp : ∃ j, FirstMax (cellAt metric) (p.1 - f) (p.2 + f) j then some hp.choose else none
    have sub : ((List.range res.length).filter fun i => getB res i) ⊆ L.filterMap pick := by
      intro j hj
      obtain ⟨L1, s, e, L2, rfl, hmx, -⟩ := (hev j).mp (List.mem_filter.mp hj).2
      refine List.mem_filterMap.mpr ⟨(s, e), by simp, ?_⟩
      have hp : ∃ j, FirstMax (cellAt metric) (s - f) (e + f) j := ⟨j, hmx⟩
      simp only [pick]
      rw [dif_pos hp]
      exact congrArg some (firstMax_unique hp.choose_spec hmx)
    have nd : ((List.range res.length).filter fun i => getB res i).Nodup := List.nodup_range.filter _
    exact (List.subperm_of_subset nd sub).length_le.trans (List.length_filterMap_le _ _)
  exact h2.trans h1

/-- islands whose windows do not overlap each get exactly one event: the first day with the largest metric from `f` days
before the island to `f` days after it -/
theorem C44_separated {cand : List Bool} {metric : List Cell} {f : Nat} {res : List Bool}
    (h : collapse cand metric f = .ok res) (hp : ∀ i, getB cand i = true → (cellAt metric i).isSome) :
    ∃ L, Islands (getB cand) f (cand.length - f) f L ∧
      (L.Pairwise (fun p q => p.2 + 2 * f < q.1) →
        ∀ p ∈ L, ∃ j, FirstMax (cellAt metric) (p.1 - f) (p.2 + f) j ∧
          ∀ i, p.1 - f ≤ i → i ≤ p.2 + f → (getB res i = true ↔ i = j)) := by
  obtain ⟨-, L, hL, hev⟩ := C44_exact h
  refine ⟨L, hL, fun hsep p hpL => ?_⟩
  obtain ⟨s, e⟩ := p
  obtain ⟨a, b, -, d⟩ := islands_mem hL (s, e) hpL
  simp only at a b d ⊢
  have hmx : ∃ j, FirstMax (cellAt metric) (s - f) (e + f) j := by
    cases hc : argmaxCell metric (s - f) (e + f) with
    | none =>
      have h1 := argmaxCell_none (by omega) hc s (by omega) (by omega)
      have h2 := hp s (d s le_rfl b)
      rw [h1] at h2; cases h2
    | some j => exact ⟨j, argmaxCell_some (by omega) hc⟩
  obtain ⟨j, hj⟩ := hmx
  refine ⟨j, hj, fun i h1 h2 => ?_⟩
  obtain ⟨L1, L2, rfl⟩ := List.append_of_mem hpL
  obtain ⟨-, hs2, hs3⟩ := List.pairwise_append.mp hsep
  have hlater := (List.pairwise_cons.mp hs2).1
  constructor
  · intro hi
    obtain ⟨M1, s', e', M2, hM, hmx', -⟩ := (hev i).mp hi
    have hmem : (s', e') ∈ L1 ++ (s, e) :: L2 := by rw [hM]; simp
    rcases List.mem_append.mp hmem with hm | hm
    · have := hs3 (s', e') hm (s, e) List.mem_cons_self
      simp only at this
      have := hmx'.2.1
      omega
    · rcases List.mem_cons.mp hm with hm | hm
      · cases hm; exact firstMax_unique hmx' hj
      · have := hlater (s', e') hm
        simp only at this
        have := hmx'.1
        omega
  · rintro rfl
    refine (hev i).mpr ⟨L1, s, e, L2, rfl, hj, fun q hq => ?_⟩
    have := hlater q hq
    have := hj.2.1
    omega

/-- a run of candidate days that reaches the end of the searched days is dropped -/
theorem C44_last_run_refuted {cand : List Bool} {metric : List Cell} {f s : Nat} {res : List Bool}
    (h : collapse cand metric f = .ok res) (hb : ∀ i, i < s → getB cand i = false) (ha : ∀ i, s ≤ i → i < cand.length → getB cand i = true) :
    ∀ j, getB res j = false := by
  obtain ⟨-, L, hL, hev⟩ := C44_exact h
  have : L = [] := by
    cases hL with
    | none => rfl
    | atEnd => rfl
    | @cons _ s' e' L g0 g1 g2 g3 g4 g5 g6 =>
      exfalso
      have h1 : s ≤ s' := by
        by_contra hh
        have := g4 s' le_rfl g1
        rw [hb s' (by omega)] at this; cases this
      rw [ha (e' + 1) (by omega) (by omega)] at g5; cases g5
  subst this
  intro j
  cases hj : getB res j with
  | false => rfl
  | true =>
    obtain ⟨L1, s, e, L2, h, -⟩ := (hev j).mp hj
    simp at h

/-! ## Examples -/

/-- two separated runs -/
def exCand : List Bool := [false, false, false, true, true, false, false, false, false, false, true, false, false, false]

/-- a metric for them, missing at the ends -/
def exMetric : List Cell := [none, some 0, some 3, some 1, some 3, some 0, some 0, some 0, some 1, some 2, some 5, some 5,
  some 0, none]

example : collapse exCand exMetric 2 = .ok [false, false, true, false, false, false, false, false, false, false, true,
    false, false, false] := by decide +kernel
example : runs false exCand = 2 := by decide
example : Islands (getB exCand) 2 (exCand.length - 2) 2 [(3, 4), (10, 10)] :=
  .cons (by decide) (by decide) (by decide) (by decide) (by decide) (by decide)
    (.cons (by decide) (by decide) (by decide) (by decide) (by decide) (by decide)
      (.none (by intro i h1 h2; simp [exCand] at h2; omega)))

/-- two runs whose windows overlap: the window of the second run erases the event of the first one -/
theorem C44_erased_refuted :
    runs false [false, false, true, false, false, false, true, false, false, false] = 2 ∧
    collapse [false, false, true, false, false, false, true, false, false, false]
      ([0, 0, 1, 0, 5, 0, 1, 6, 0, 0].map fun x : ℚ => some x) 2 =
      .ok [false, false, false, false, false, false, false, true, false, false] := by
  constructor <;> decide +kernel

example : collapse [false, false, false, true, true, true] ([0, 0, 0, 1, 1, 1].map fun x : ℚ => some x) 1 =
    .ok (List.replicate 6 false) := by decide +kernel

end Verif.Cods
