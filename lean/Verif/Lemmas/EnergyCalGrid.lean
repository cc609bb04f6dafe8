import Verif.Lemmas.EnergyCal
import Verif.Lemmas.CalendarMonth
import Verif.Lemmas.Aggregation
import Verif.Props.Energy

/-! Lemmas about the edges of calendar periods. -/

namespace Verif

theorem calPoint_eq (k q : Int) : calPoint k q = monthFirst (k * q) * dayNs := rfl

theorem calPoint_div (k q : Int) : calPoint k q / dayNs = monthFirst (k * q) := by
  rw [calPoint_eq, Int.mul_ediv_cancel _ (ne_of_gt dayNs_pos)]

theorem calNo_point {k : Int} (hk : 0 < k) (q : Int) : calNo k (calPoint k q) = q := by
  unfold calNo
  rw [calPoint_div, monthNo_monthFirst, Int.mul_ediv_cancel_left _ (ne_of_gt hk)]

theorem calPoint_step {k : Int} (hk : 0 < k) {p q : Int} (h : p < q) : calPoint k p + 28 * dayNs ≤ calPoint k q := by
  rw [calPoint_eq, calPoint_eq]
  have h1 := (monthFirst_step (k * p)).1
  have h2 : monthFirst (k * p + 1) ≤ monthFirst (k * q) := by
    have : k * p + 1 ≤ k * q := by nlinarith
    rcases eq_or_lt_of_le this with e | e
    · rw [e]
    · exact (monthFirst_lt e).le
  have h3 : monthFirst (k * p) + 28 ≤ monthFirst (k * q) := by omega
  have := dayNs_pos
  nlinarith

theorem calPoint_lt {k : Int} (hk : 0 < k) {p q : Int} : calPoint k p < calPoint k q ↔ p < q := by
  have := dayNs_pos
  constructor
  · intro h
    by_contra hc
    rcases eq_or_lt_of_le (not_lt.mp hc) with e | e
    · rw [e] at h; omega
    · have := calPoint_step hk e; omega
  · intro h
    have := calPoint_step hk h; omega

theorem calPoint_le {k : Int} (hk : 0 < k) {p q : Int} : calPoint k p ≤ calPoint k q ↔ p ≤ q := by
  rw [← not_lt, calPoint_lt hk, not_lt]

theorem calNo_bounds {k : Int} (hk : 0 < k) (t : Int) : calPoint k (calNo k t) ≤ t ∧ startDay t < calPoint k (calNo k t + 1) := by
  obtain ⟨h1, h2, -⟩ := month_bounds (t / dayNs)
  have hm : k * calNo k t ≤ monthNo (t / dayNs) := Int.mul_ediv_self_le (ne_of_gt hk)
  have hM : monthNo (t / dayNs) + 1 ≤ k * (calNo k t + 1) := by
    have := Int.lt_mul_ediv_self_add (x := monthNo (t / dayNs)) hk
    unfold calNo
    linarith [mul_add k (monthNo (t / dayNs) / k) 1]
  have le : ∀ {a b : Int}, a ≤ b → monthFirst a ≤ monthFirst b := by
    intro a b h
    rcases eq_or_lt_of_le h with e | e
    · rw [e]
    · exact (monthFirst_lt e).le
  have hd := dayNs_pos
  constructor
  · rw [calPoint_eq]
    have := le hm
    have e := Int.mul_ediv_add_emod t dayNs
    have := Int.emod_nonneg t (ne_of_gt hd)
    nlinarith
  · rw [calPoint_eq]
    have := le hM
    unfold startDay
    nlinarith

theorem calNo_unique {k : Int} (hk : 0 < k) {t q : Int} (h1 : calPoint k q ≤ t) (h2 : startDay t < calPoint k (q + 1)) :
    calNo k t = q := by
  obtain ⟨g1, g2⟩ := calNo_bounds hk t
  have hs : ∀ p, calPoint k p ≤ t → calPoint k p ≤ startDay t := by
    intro p hp
    unfold startDay
    rw [calPoint_eq] at hp ⊢
    have : monthFirst (k * p) ≤ t / dayNs := by rw [Int.le_ediv_iff_mul_le dayNs_pos]; exact hp
    have := dayNs_pos
    nlinarith
  have a1 := (calPoint_lt hk).mp (lt_of_le_of_lt (hs _ h1) g2)
  have a2 := (calPoint_lt hk).mp (lt_of_le_of_lt (hs _ g1) h2)
  omega

theorem startDay_le (t : Int) : startDay t ≤ t := by
  unfold startDay
  have e := Int.mul_ediv_add_emod t dayNs
  have := Int.emod_nonneg t (ne_of_gt dayNs_pos)
  linarith [mul_comm dayNs (t / dayNs)]

theorem startDay_point (k q : Int) : startDay (calPoint k q) = calPoint k q := by
  unfold startDay; rw [calPoint_div, calPoint_eq]

theorem calPoint_le_iff {k : Int} (q t : Int) : calPoint k q ≤ t ↔ calPoint k q ≤ startDay t := by
  constructor
  · intro h
    unfold startDay
    rw [calPoint_eq] at h ⊢
    have : monthFirst (k * q) ≤ t / dayNs := by rw [Int.le_ediv_iff_mul_le dayNs_pos]; exact h
    have := dayNs_pos
    nlinarith
  · intro h; exact h.trans (startDay_le t)

/-- the point before the first one that is on or after the day -/
theorem calBefore_spec {k : Int} (hk : 0 < k) (t q : Int) : calBefore k t < q ↔ startDay t ≤ calPoint k q := by
  obtain ⟨g1, g2⟩ := calNo_bounds hk t
  unfold calBefore
  split_ifs with h
  · rw [← h, calPoint_le hk]; omega
  · have h1 : calPoint k (calNo k t) < startDay t := lt_of_le_of_ne ((calPoint_le_iff _ _).mp g1) h
    constructor
    · intro hq
      have : calPoint k (calNo k t + 1) ≤ calPoint k q := (calPoint_le hk).mpr (by omega)
      omega
    · intro hq
      exact (calPoint_lt hk).mp (lt_of_lt_of_le h1 hq)

theorem calBefore_congr {k t u : Int} (h : t / dayNs = u / dayNs) : calBefore k t = calBefore k u := by
  unfold calBefore calNo startDay; rw [h]

theorem calBefore_le_calNo {k : Int} (hk : 0 < k) {t u : Int} (h : t ≤ u) : calBefore k t ≤ calNo k u := by
  by_contra hc
  have h1 := (calBefore_spec hk t (calBefore k t)).not.mp (lt_irrefl _)
  have h2 := (calNo_bounds hk u).2
  have h3 : calPoint k (calNo k u + 1) ≤ calPoint k (calBefore k t) := (calPoint_le hk).mpr (by omega)
  have : startDay t ≤ startDay u := by
    unfold startDay
    have := Int.ediv_le_ediv dayNs_pos h
    have := dayNs_pos
    nlinarith
  omega

theorem intRange_snoc (a : Int) (n : Nat) : intRange a (n + 1) = intRange a n ++ [a + n] := by
  induction n generalizing a with
  | zero => simp [intRange]
  | succ n ih =>
    rw [intRange, ih (a + 1), intRange]
    simp
    omega

theorem intRange_sorted (a : Int) (n : Nat) : (intRange a n).Pairwise (· < ·) := by
  induction n generalizing a with
  | zero => simp [intRange]
  | succ n ih =>
    rw [intRange, List.pairwise_cons]
    refine ⟨fun x hx => ?_, ih _⟩
    have := (mem_intRange.mp hx).1
    omega

theorem calGrid_sorted {k : Int} (hk : 0 < k) (first last : Int) : StrictSorted (calGrid k first last) := by
  unfold calGrid StrictSorted
  rw [List.pairwise_map]
  exact (intRange_sorted _ _).imp fun h => (calPoint_lt hk).mpr h

theorem intRange_len (a : Int) (n : Nat) : (intRange a n).length = n := by
  induction n generalizing a with
  | zero => rfl
  | succ n ih => simp [intRange, ih]

theorem head_sorted {U : List Int} (hs : StrictSorted U) {u : Int} (h1 : u ∈ U) (h2 : ∀ x ∈ U, u ≤ x) : U.headD 0 = u := by
  cases U with
  | nil => cases h1
  | cons a U =>
    rcases List.mem_cons.mp h1 with h | h
    · exact h.symm
    · have := (List.pairwise_cons.mp hs).1 u h
      have := h2 a (by simp)
      omega

theorem last_sorted {U : List Int} (hs : StrictSorted U) {u : Int} (h1 : u ∈ U) (h2 : ∀ x ∈ U, x ≤ u) : U.getLastD 0 = u := by
  induction U with
  | nil => cases h1
  | cons a U ih =>
    obtain ⟨g1, g2⟩ := List.pairwise_cons.mp hs
    cases U with
    | nil => simp at h1; simp [h1]
    | cons b U =>
      rw [List.getLastD_cons, List.getLastD_cons]
      have := ih g2 (by
        rcases List.mem_cons.mp h1 with h | h
        · have := g1 b (by simp); have := h2 b (by simp); omega
        · exact h) fun x hx => h2 x (List.mem_cons_of_mem _ hx)
      rw [List.getLastD_cons] at this
      exact this

/-- the bins of a grid of calendar points, without the first -/
theorem bins_calGrid (P : Int → Int) (a : Int) (n : Nat) :
    ((((intRange a (n + 2)).map P).zip ((intRange a (n + 2)).map P).tail).tail) =
      (intRange (a + 1) n).map fun q => (P q, P (q + 1)) := by
  have key : ∀ (n : Nat) (a : Int), ((intRange a (n + 1)).map P).zip ((intRange a (n + 1)).map P).tail =
      (intRange a n).map fun q => (P q, P (q + 1)) := by
    intro n
    induction n with
    | zero => intro a; simp [intRange]
    | succ n ih =>
      intro a
      have := ih (a + 1)
      simp only [intRange, List.map_cons, List.tail_cons, List.zip_cons_cons] at this ⊢
      rw [this]
  rw [key]
  simp [intRange]

/-- `_aggregate` over calendar periods: the edges of the union of the index with the labels are one more than those of the index -/
theorem aggregateCal_eq {ts : Series} (hs : StrictSorted (keys ts)) {k : Int} (hk : 0 < k) {first last : Int}
    (h0 : (keys ts).head? = some first) (hl : (keys ts).getLast? = some last) (m : ℚ) (ty : PowerType) :
    aggregateCal ts k m ty =
      (aggregateEdges ts (calGrid k first last) (fun _ => calGrid k first last) m ty).map
        (· ++ [(calPoint k (calNo k last + 2), none)]) := by
  obtain ⟨hb1, hb2⟩ := head_le_last hs h0 hl
  have hfl : first ≤ last := by
    have := List.mem_of_getLast? hl
    exact hb1 _ this
  cases ts with
  | nil => simp [keys] at h0
  | cons r rest =>
    have e1 : r.1 = first := by simpa [keys] using h0
    have e2 : (rest.getLastD r).1 = last := by
      rw [keys, List.getLast?_map, List.getLast?_cons] at hl
      simpa using hl
    unfold aggregateCal
    dsimp only
    rw [e1, e2]
    have hab := calBefore_le_calNo hk hfl
    obtain ⟨n, hn⟩ : ∃ n : Nat, (calNo k last + 2 - calBefore k first).toNat = n + 2 ∧ calBefore k first + n = calNo k last :=
      ⟨(calNo k last - calBefore k first).toNat, by omega, by omega⟩
    have hgrid : calGrid k first last = (intRange (calBefore k first) (n + 2)).map (calPoint k) := by
      unfold calGrid; rw [hn.1]
    have hlastP : (calGrid k first last).getLast? = some (calPoint k (calNo k last + 1)) := by
      rw [hgrid, intRange_snoc, List.map_append, List.map_singleton, List.getLast?_concat]
      congr 2
      push_cast
      omega
    have hafter : last < calPoint k (calNo k last + 1) := by
      by_contra hc
      have := (calPoint_le_iff _ _).mp (not_lt.mp hc)
      have := (calNo_bounds hk last).2
      omega
    refine aggregateEdges_snoc m ty (by rw [hgrid, List.length_map, intRange_len]; omega) hlastP
      (fun t ht => (hb2 t ht).trans hafter.le) ?_ ?_
    · intro e he
      rw [hgrid] at he
      obtain ⟨q, hq, rfl⟩ := List.mem_map.mp he
      have := mem_intRange.mp hq
      rw [calPoint_le hk]
      push_cast at this
      omega
    · have hUs := sortedUnion_sorted (List.map Prod.fst (r :: rest) ++ (calGrid k first last).tail)
      have hUm : ∀ u, u ∈ sortedUnion (List.map Prod.fst (r :: rest) ++ (calGrid k first last).tail) ↔
          u ∈ keys (r :: rest) ∨ u ∈ (calGrid k first last).tail := by
        intro u; rw [mem_sortedUnion, List.mem_append]
      generalize sortedUnion (List.map Prod.fst (r :: rest) ++ (calGrid k first last).tail) = U at hUs hUm
      have htail : ∀ u, u ∈ (calGrid k first last).tail ↔ ∃ q, calBefore k first < q ∧ q ≤ calNo k last + 1 ∧ u = calPoint k q := by
        intro u
        rw [hgrid, intRange, List.map_cons, List.tail_cons]
        simp only [List.mem_map, mem_intRange]
        constructor
        · rintro ⟨q, hq, rfl⟩; exact ⟨q, by omega, by push_cast at hq; omega, rfl⟩
        · rintro ⟨q, g1, g2, rfl⟩; exact ⟨q, ⟨by omega, by push_cast; omega⟩, rfl⟩
      have hgl : U.getLastD 0 = calPoint k (calNo k last + 1) := by
        refine last_sorted hUs ((hUm _).mpr (.inr ((htail _).mpr ⟨_, by omega, le_rfl, rfl⟩))) ?_
        intro x hx
        rcases (hUm x).mp hx with h | h
        · exact (hb2 x h).trans hafter.le
        · obtain ⟨q, -, hq, rfl⟩ := (htail x).mp h
          exact (calPoint_le hk).mpr hq
      have hhd : calBefore k (U.headD 0) = calBefore k first := by
        have hge : ∀ q, calBefore k first < q → startDay first ≤ calPoint k q := fun q => (calBefore_spec hk first q).mp
        by_cases hp : first ≤ calPoint k (calBefore k first + 1)
        · rw [head_sorted hUs ((hUm first).mpr (.inl (List.mem_of_head? h0)))]
          intro x hx
          rcases (hUm x).mp hx with h | h
          · exact hb1 x h
          · obtain ⟨q, hq, -, rfl⟩ := (htail x).mp h
            exact hp.trans ((calPoint_le hk).mpr (by omega))
        · have hp' := not_le.mp hp
          rw [head_sorted hUs (u := calPoint k (calBefore k first + 1))
            ((hUm _).mpr (.inr ((htail _).mpr ⟨_, by omega, by omega, rfl⟩)))]
          · apply calBefore_congr
            have h1 := hge _ (lt_add_one _)
            have h2 := (calPoint_le_iff _ _).mp hp'.le
            have h3 : calPoint k (calBefore k first + 1) = startDay first := by omega
            rw [h3]
            unfold startDay
            rw [Int.mul_ediv_cancel _ (ne_of_gt dayNs_pos)]
          · intro x hx
            rcases (hUm x).mp hx with h | h
            · exact hp'.le.trans (hb1 x h)
            · obtain ⟨q, hq, -, rfl⟩ := (htail x).mp h
              exact (calPoint_le hk).mpr (by omega)
      show calGrid k (U.headD 0) (U.getLastD 0) = _
      unfold calGrid
      rw [hhd, hgl, calNo_point hk, hn.1, show (calNo k last + 1 + 2 - calBefore k first).toNat = n + 2 + 1 by omega,
        intRange_snoc, List.map_append, List.map_singleton]
      rw [show calBefore k first + ((n + 2 : Nat) : Int) = calNo k last + 2 by push_cast; omega]

end Verif
