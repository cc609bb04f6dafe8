import Verif.Props.Ols

/-! # Property C150 (which part of a record the least-squares rate depends on) -/

namespace Verif

namespace Spec

/-- the rows of a record that have a value -/
def readings (s : Series) : List (Int × ℚ) := s.filterMap fun r => r.2.map fun v => (r.1, v)

end Spec

open Spec

theorem olsFit_perm {p q : List (ℚ × ℚ)} (h : p.Perm q) : olsFit p = olsFit q := by
  unfold olsFit
  rw [h.length_eq, (h.map fun p => p.1).sum_eq, (h.map fun p => p.2).sum_eq, (h.map fun p => p.1 * p.1).sum_eq,
    (h.map fun p => p.1 * p.2).sum_eq]

theorem olsRows_readings (t0 : Int) (x0 : Cell) (l : Series) :
    olsRows ((t0, x0) :: l) =
      (readings ((t0, x0) :: l)).map fun p => ((((p.1 : ℚ) - t0) / dayNs) / 365, p.2) := by
  unfold olsRows readings
  rw [List.map_filterMap]
  apply List.filterMap_congr
  intro r _
  cases r.2 <;> rfl

theorem sums_shift (c : ℚ) (l : List (ℚ × ℚ)) :
    ((l.map fun p => (p.1 + c, p.2)).map fun p => p.1).sum = (l.map fun p => p.1).sum + l.length * c ∧
    ((l.map fun p => (p.1 + c, p.2)).map fun p => p.2).sum = (l.map fun p => p.2).sum ∧
    ((l.map fun p => (p.1 + c, p.2)).map fun p => p.1 * p.1).sum =
      (l.map fun p => p.1 * p.1).sum + 2 * c * (l.map fun p => p.1).sum + l.length * c ^ 2 ∧
    ((l.map fun p => (p.1 + c, p.2)).map fun p => p.1 * p.2).sum =
      (l.map fun p => p.1 * p.2).sum + c * (l.map fun p => p.2).sum := by
  induction l with
  | nil => simp
  | cons a l ih =>
    obtain ⟨h1, h2, h3, h4⟩ := ih
    simp only [List.map_cons, List.sum_cons, List.length_cons]
    rw [h1, h2, h3, h4]
    push_cast
    refine ⟨by ring, rfl, by ring, by ring⟩

theorem olsFit_shift (c : ℚ) (l : List (ℚ × ℚ)) :
    olsFit (l.map fun p => (p.1 + c, p.2)) = (olsFit l).map fun bm => (bm.1 - c * bm.2, bm.2) := by
  obtain ⟨h1, h2, h3, h4⟩ := sums_shift c l
  unfold olsFit
  simp only
  rw [h1, h2, h3, h4, List.length_map]
  generalize (l.map fun p => p.1).sum = sx
  generalize (l.map fun p => p.2).sum = sy
  generalize (l.map fun p => p.1 * p.1).sum = sxx
  generalize (l.map fun p => p.1 * p.2).sum = sxy
  generalize (l.length : ℚ) = n
  rw [show n * (sxx + 2 * c * sx + n * c ^ 2) - (sx + n * c) * (sx + n * c) = n * sxx - sx * sx by ring]
  split_ifs with hd
  · rfl
  · simp only [Option.map_some, Option.some.injEq, Prod.mk.injEq]
    constructor
    · rw [← mul_div_assoc, ← sub_div]
      congr 1
      ring
    · congr 1
      ring

/-- **C150.** The rate, intercept and slope of `degradation_ols` depend on the rows with values, in any
order, and on the first timestamp: rows without a value after the first make no difference. -/
theorem C150_same {s s' : Series} (h0 : s.head?.map Prod.fst = s'.head?.map Prod.fst)
    (hp : (readings s).Perm (readings s')) : degradationOls s = degradationOls s' := by
  cases s with
  | nil =>
    cases s' with
    | nil => rfl
    | cons b l' => simp at h0
  | cons a l =>
    cases s' with
    | nil => simp at h0
    | cons b l' =>
      obtain ⟨t, x⟩ := a
      obtain ⟨u, y⟩ := b
      simp only [List.head?_cons, Option.map_some, Option.some.injEq] at h0
      subst h0
      unfold degradationOls
      rw [olsRows_readings, olsRows_readings, olsFit_perm (hp.map _)]
      simp

example : ([(0, some 2), (365 * dayNs, none), (730 * dayNs, some 1), (1095 * dayNs, some (1/2))] : Series).head?.map Prod.fst =
      ([(0, some 2), (1095 * dayNs, some (1/2)), (730 * dayNs, some 1)] : Series).head?.map Prod.fst ∧
    readings [(0, some 2), (365 * dayNs, none), (730 * dayNs, some 1), (1095 * dayNs, some (1/2))] =
      [(0, 2), (730 * dayNs, 1), (1095 * dayNs, 1/2)] ∧
    readings [(0, some 2), (1095 * dayNs, some (1/2)), (730 * dayNs, some 1)] =
      [(0, 2), (1095 * dayNs, 1/2), (730 * dayNs, 1)] := by
  decide +kernel

/-- **C150.** If the first timestamp differs as well, the slope is still the same and the intercept is
the same line read at the other timestamp. -/
theorem C150_reference {t t' : Int} {x x' : Cell} {l l' : Series}
    (hp : (readings ((t, x) :: l)).Perm (readings ((t', x') :: l'))) {r : Flt} {b m : ℚ}
    (h : degradationOls ((t, x) :: l) = .ok (some (r, b, m))) :
    ∃ r', degradationOls ((t', x') :: l') = .ok (some (r', b + m * (((t' : ℚ) - t) / dayNs / 365), m)) := by
  unfold degradationOls at h ⊢
  rw [if_neg (by simp)] at h ⊢
  have e : olsRows ((t', x') :: l') = ((readings ((t', x') :: l')).map fun p => ((((p.1 : ℚ) - t) / dayNs) / 365, p.2)).map
      fun p => (p.1 + ((t : ℚ) - t') / dayNs / 365, p.2) := by
    rw [olsRows_readings, List.map_map]
    apply List.map_congr_left
    intro p _
    simp only [Function.comp_apply, Prod.mk.injEq, and_true]
    ring
  rw [e, olsFit_shift, ← olsFit_perm (hp.map _), ← olsRows_readings]
  cases hf : olsFit (olsRows ((t, x) :: l)) with
  | none => rw [hf] at h; simp at h
  | some bm =>
    rw [hf] at h
    simp only [Option.map_some, Except.ok.injEq, Option.some.injEq, Prod.mk.injEq] at h
    obtain ⟨-, rfl, rfl⟩ := h
    simp only [Option.map_some]
    refine ⟨_, congrArg _ (congrArg _ (Prod.ext rfl (Prod.ext ?_ rfl)))⟩
    simp only
    ring

/-- three yearly readings, with and without an empty row two years earlier -/
example : degradationOls [(730 * dayNs, some 2), (1095 * dayNs, some (3/2)), (1460 * dayNs, some 1)] =
    .ok (some (.fin (-25), 2, -1/2)) ∧
    readings [(0, none), (730 * dayNs, some 2), (1095 * dayNs, some (3/2)), (1460 * dayNs, some 1)] =
      readings [(730 * dayNs, some 2), (1095 * dayNs, some (3/2)), (1460 * dayNs, some 1)] := by
  decide +kernel

/-- **C150, refuted for the first row.** An empty first row, or another arrangement of the rows, changes
the rate: "year 0" is the first row of the table, whether it holds the first reading or not. The same
three readings give -25, -50/3 or -50 percent a year. -/
theorem C150_first_row_refuted :
    degradationOls [(730 * dayNs, some 2), (1095 * dayNs, some (3/2)), (1460 * dayNs, some 1)] =
      .ok (some (.fin (-25), 2, -1/2)) ∧
    degradationOls [(0, none), (730 * dayNs, some 2), (1095 * dayNs, some (3/2)), (1460 * dayNs, some 1)] =
      .ok (some (.fin (-50/3), 3, -1/2)) ∧
    degradationOls [(1460 * dayNs, some 1), (1095 * dayNs, some (3/2)), (730 * dayNs, some 2)] =
      .ok (some (.fin (-50), 1, -1/2)) := by
  decide +kernel

end Verif
