import Verif.Lemmas.EnergyTrap

/-! From `_aggregate` to `energy_from_power`. -/

namespace Verif
open Spec

theorem rate_of_adjacent {d : List (Int × ℚ)} (hs : StrictSorted (keys d)) {a b u : Int}
    {va vb m : ℚ} (h : Adjacent d (a, va) (b, vb)) (h1 : a < u) (h2 : u ≤ b) :
    rate m u d = if (b : ℚ) - a ≤ m then some vb else none := by
  obtain ⟨l1, l2, rfl⟩ := h
  induction l1 with
  | nil => simp only [List.nil_append, rate]; rw [if_pos ⟨h1, h2⟩]
  | cons r l1 ih =>
    have ih' := ih (List.pairwise_cons.mp hs).2
    have hlt : ∀ s ∈ l1 ++ (a, va) :: (b, vb) :: l2, r.1 < s.1 := fun s hs' =>
      (List.pairwise_cons.mp hs).1 s.1 (List.mem_map.mpr ⟨s, hs', rfl⟩)
    cases l1 with
    | nil =>
      simp only [List.cons_append, List.nil_append, rate] at ih' ⊢
      rw [if_neg (by omega), ih']
    | cons s l1 =>
      simp only [List.cons_append, rate] at ih' ⊢
      have : s.1 < u := by
        have := (List.pairwise_cons.mp (List.pairwise_cons.mp hs).2).1 a (by simp)
        omega
      rw [if_neg (by omega), ih']

theorem rate_some {d : List (Int × ℚ)} {u : Int} {m v : ℚ} (h : rate m u d = some v) :
    ∃ a va b, Adjacent d (a, va) (b, v) ∧ a < u ∧ u ≤ b ∧ (b : ℚ) - a ≤ m := by
  induction d with
  | nil => simp [rate] at h
  | cons r d ih =>
    cases d with
    | nil => simp [rate] at h
    | cons s d =>
      obtain ⟨a, va⟩ := r
      obtain ⟨b, vb⟩ := s
      simp only [rate] at h
      split at h
      · next hin =>
        split at h
        · next hm =>
          cases h
          exact ⟨a, va, b, ⟨[], d, rfl⟩, hin.1, hin.2, hm⟩
        · cases h
      · obtain ⟨a', va', b', ⟨l1, l2, e⟩, h'⟩ := ih h
        exact ⟨a', va', b', ⟨(a, va) :: l1, l2, by rw [e]; rfl⟩, h'⟩

/-- a label inside an index step that is longer than `m` -/
theorem firstLabelGe_gaps {l : List Int} (hs : StrictSorted l) {u : Int} {g : ℚ} :
    firstLabelGe (gaps l) u = some g ↔ ∃ a b, Adjacent l a b ∧ a < u ∧ u ≤ b ∧ g = (b : ℚ) - a := by
  cases l with
  | nil =>
    simp only [gaps, firstLabelGe, reduceCtorEq, false_iff]
    rintro ⟨a, b, ⟨l1, l2, h⟩, _⟩
    simp at h
  | cons t0 l =>
    simp only [gaps, firstLabelGe]
    have key : ∀ t0, StrictSorted (t0 :: l) → t0 < u → (firstLabelGe (gapsFrom t0 l) u = some g ↔
        ∃ a b, Adjacent (t0 :: l) a b ∧ a < u ∧ u ≤ b ∧ g = (b : ℚ) - a) := by
      clear hs
      induction l with
      | nil =>
        intro t0 _ _
        simp only [gapsFrom, firstLabelGe, reduceCtorEq, false_iff]
        rintro ⟨a, b, ⟨l1, l2, h⟩, _⟩
        have := congrArg List.length h
        simp at this; omega
      | cons t l ih =>
        intro t0 hs ht0
        have hs' := (List.pairwise_cons.mp hs).2
        simp only [gapsFrom, firstLabelGe]
        by_cases htu : u ≤ t
        · rw [if_pos htu]
          constructor
          · intro h; cases h
            exact ⟨t0, t, ⟨[], l, rfl⟩, ht0, htu, rfl⟩
          · rintro ⟨a, b, ⟨l1, l2, e⟩, h1, h2, rfl⟩
            cases l1 with
            | nil => simp only [List.nil_append, List.cons.injEq] at e; rw [e.1, e.2.1]
            | cons r l1 =>
              exfalso
              simp only [List.cons_append, List.cons.injEq] at e
              have ha : a ∈ t :: l := by rw [e.2]; simp
              rcases List.mem_cons.mp ha with h | h
              · omega
              · have := (List.pairwise_cons.mp hs').1 a h; omega
        · rw [if_neg htu, ih t hs' (by omega)]
          constructor
          · rintro ⟨a, b, ⟨l1, l2, e⟩, h⟩
            exact ⟨a, b, ⟨t0 :: l1, l2, by rw [e]; rfl⟩, h⟩
          · rintro ⟨a, b, ⟨l1, l2, e⟩, h1, h2, h3⟩
            cases l1 with
            | nil =>
              simp only [List.nil_append, List.cons.injEq] at e
              omega
            | cons r l1 =>
              simp only [List.cons_append, List.cons.injEq] at e
              exact ⟨a, b, ⟨l1, l2, e.2⟩, h1, h2, h3⟩
    by_cases hu : u ≤ t0
    · rw [if_pos hu]
      simp only [reduceCtorEq, false_iff]
      rintro ⟨a, b, ⟨l1, l2, e⟩, h1, _⟩
      have ha : a ∈ t0 :: l := by rw [e]; simp
      rcases List.mem_cons.mp ha with h | h
      · omega
      · have := (List.pairwise_cons.mp hs).1 a h; omega
    · rw [if_neg hu]; exact key t0 hs (by omega)

theorem adjacent_zip {l : List Int} {a b : Int} : Adjacent l a b ↔ (a, b) ∈ l.zip l.tail := by
  cases l with
  | nil => simp [Adjacent]
  | cons x l =>
    simp only [List.tail_cons]
    induction l generalizing x with
    | nil =>
      simp only [List.zip_nil_right, List.not_mem_nil, iff_false]
      rintro ⟨l1, l2, h⟩
      have := congrArg List.length h
      simp at this; omega
    | cons y l ih =>
      rw [List.zip_cons_cons, List.mem_cons, ← ih]
      constructor
      · rintro ⟨l1, l2, e⟩
        cases l1 with
        | nil => left; simp only [List.nil_append, List.cons.injEq] at e; simp [e.1, e.2.1]
        | cons r l1 =>
          right
          simp only [List.cons_append, List.cons.injEq] at e
          exact ⟨l1, l2, e.2⟩
      · rintro (h | ⟨l1, l2, e⟩)
        · cases h; exact ⟨[], l, rfl⟩
        · exact ⟨x :: l1, l2, by rw [e]; rfl⟩

end Verif
