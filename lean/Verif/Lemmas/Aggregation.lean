import Verif.Spec.Aggregation
import Verif.Lemmas.Stats

/-! Helper lemmas for the aggregation model. -/

namespace Verif

theorem mem_intRange {a x : Int} {n : Nat} : x ∈ intRange a n ↔ a ≤ x ∧ x < a + n := by
  induction n generalizing a with
  | zero => simp [intRange]
  | succ n ih => simp only [intRange, List.mem_cons, ih]; push_cast; omega

theorem intRange_nodup (a : Int) (n : Nat) : (intRange a n).Nodup := by
  induction n generalizing a with
  | zero => simp [intRange]
  | succ n ih =>
    simp only [intRange, List.nodup_cons, mem_intRange]
    exact ⟨by omega, ih _⟩

theorem binOf_eq_iff {origin freq t b : Int} (hf : 0 < freq) :
    binOf origin freq t = b ↔ origin + b * freq ≤ t ∧ t < origin + b * freq + freq := by
  unfold binOf
  have e : (b + 1) * freq = b * freq + freq := by ring
  have h1 := Int.le_ediv_iff_mul_le (a := b) (b := t - origin) hf
  have h2 := Int.ediv_lt_iff_lt_mul (a := t - origin) (b := b + 1) hf
  rw [e] at h2
  omega

theorem foldl_min_le (a : Int) (l : List Int) : l.foldl min a ≤ a ∧ ∀ x ∈ l, l.foldl min a ≤ x := by
  induction l generalizing a with
  | nil => simp
  | cons b l ih =>
    obtain ⟨h1, h2⟩ := ih (min a b)
    simp only [List.foldl_cons, List.mem_cons]
    refine ⟨by omega, ?_⟩
    rintro x (rfl | hx)
    · omega
    · exact h2 x hx

theorem le_foldl_max (a : Int) (l : List Int) : a ≤ l.foldl max a ∧ ∀ x ∈ l, x ≤ l.foldl max a := by
  induction l generalizing a with
  | nil => simp
  | cons b l ih =>
    obtain ⟨h1, h2⟩ := ih (max a b)
    simp only [List.foldl_cons, List.mem_cons]
    refine ⟨by omega, ?_⟩
    rintro x (rfl | hx)
    · omega
    · exact h2 x hx

theorem binOf_mono {origin freq s t : Int} (hf : 0 < freq) (h : s ≤ t) :
    binOf origin freq s ≤ binOf origin freq t :=
  Int.ediv_le_ediv hf (by omega)

/-- What every reported entry is, in terms of the period it labels. -/
theorem mem_aggregationInsol {rows : List InsolRow} {freq L : Int} {v : Flt} (hf : 0 < freq)
    (h : (L, v) ∈ aggregationInsol rows freq) :
    v = Flt.ofDiv
      (skipnaSum ((Spec.inPeriod rows L freq).map fun x => cellOp (· * ·) x.insol x.energy))
      (skipnaSum ((Spec.inPeriod rows L freq).map (·.insol))) := by
  cases rows with
  | nil => simp [aggregationInsol] at h
  | cons r rest =>
    simp only [aggregationInsol, List.mem_map] at h
    obtain ⟨b, _, hb⟩ := h
    simp only [Prod.mk.injEq] at hb
    obtain ⟨hL, hv⟩ := hb
    have : (r :: rest).filter (fun x =>
        decide (binOf (startDay (minT r.t (rest.map (·.t)))) freq x.t = b)) =
        Spec.inPeriod (r :: rest) L freq := by
      unfold Spec.inPeriod
      apply List.filter_congr
      intro x _
      rw [← hL]
      exact decide_eq_decide.mpr (binOf_eq_iff hf)
    rw [← hv, this]

theorem ofDiv_pos {a b : ℚ} (hb : 0 < b) : Flt.ofDiv a b = .fin (a / b) := by
  simp [Flt.ofDiv, ne_of_gt hb]

/-- Rows each of which is either complete or lacks insolation. -/
def InsolGuard (rows : List InsolRow) : Prop :=
  ∀ r ∈ rows, r.energy = none → r.insol = none ∨ r.insol = some 0

theorem skipnaSum_none (l : List Cell) : skipnaSum (none :: l) = skipnaSum l := by
  simp [skipnaSum, valids]

theorem skipnaSum_some (a : ℚ) (l : List Cell) : skipnaSum (some a :: l) = a + skipnaSum l := by
  simp [skipnaSum, valids]

theorem pairs_some (t : Int) (w e : ℚ) (rows : List InsolRow) :
    Spec.pairs (⟨t, some w, some e⟩ :: rows) = (w, e) :: Spec.pairs rows := rfl

@[simp] theorem pairs_none1 (t : Int) (e : Cell) (rows : List InsolRow) :
    Spec.pairs (⟨t, none, e⟩ :: rows) = Spec.pairs rows := rfl

@[simp] theorem pairs_none (t : Int) (w : Cell) (rows : List InsolRow) :
    Spec.pairs (⟨t, w, none⟩ :: rows) = Spec.pairs rows := by
  cases w <;> rfl

theorem Spec.weightedSum_cons (x : ℚ × ℚ) (p : List (ℚ × ℚ)) :
    Spec.weightedSum (x :: p) = x.1 * x.2 + Spec.weightedSum p := by
  simp [Spec.weightedSum]

theorem Spec.totalWeight_cons (x : ℚ × ℚ) (p : List (ℚ × ℚ)) :
    Spec.totalWeight (x :: p) = x.1 + Spec.totalWeight p := by
  simp [Spec.totalWeight]

theorem sums_of_guard {rows : List InsolRow} (h : InsolGuard rows) :
    skipnaSum (rows.map fun x => cellOp (· * ·) x.insol x.energy) =
      Spec.weightedSum (Spec.pairs rows) ∧
    skipnaSum (rows.map (·.insol)) = Spec.totalWeight (Spec.pairs rows) := by
  induction rows with
  | nil => simp [skipnaSum, valids, Spec.weightedSum, Spec.totalWeight, Spec.pairs]
  | cons r rows ih =>
    obtain ⟨i1, i2⟩ := ih (fun x hx => h x (by simp [hx]))
    have hr := h r (by simp)
    rcases r with ⟨t, _ | w, _ | e⟩
    · exact ⟨by simpa [cellOp, skipnaSum_none, pairs_none] using i1, by simpa [skipnaSum_none] using i2⟩
    · exact ⟨by simpa [cellOp, skipnaSum_none, pairs_none] using i1, by simpa [skipnaSum_none] using i2⟩
    · have : w = 0 := by simpa using hr rfl
      subst this
      exact ⟨by simpa [cellOp, skipnaSum_none, pairs_none] using i1,
        by simpa [skipnaSum_some] using i2⟩
    · simp only [List.map_cons, cellOp, skipnaSum_some, pairs_some, Spec.weightedSum_cons,
        Spec.totalWeight_cons]
      exact ⟨by rw [← i1]; rfl, by rw [i2]⟩

theorem weightedSum_ge {p : List (ℚ × ℚ)} {m : ℚ} (hw : ∀ x ∈ p, 0 ≤ x.1)
    (hm : ∀ x ∈ p, m ≤ x.2) : m * Spec.totalWeight p ≤ Spec.weightedSum p := by
  induction p with
  | nil => simp [Spec.totalWeight, Spec.weightedSum]
  | cons x p ih =>
    have i := ih (fun y hy => hw y (by simp [hy])) (fun y hy => hm y (by simp [hy]))
    have h1 := hw x (by simp)
    have h2 := hm x (by simp)
    simp only [Spec.totalWeight, Spec.weightedSum, List.map_cons, List.sum_cons] at *
    nlinarith

theorem weightedSum_le {p : List (ℚ × ℚ)} {m : ℚ} (hw : ∀ x ∈ p, 0 ≤ x.1)
    (hm : ∀ x ∈ p, x.2 ≤ m) : Spec.weightedSum p ≤ m * Spec.totalWeight p := by
  induction p with
  | nil => simp [Spec.totalWeight, Spec.weightedSum]
  | cons x p ih =>
    have i := ih (fun y hy => hw y (by simp [hy])) (fun y hy => hm y (by simp [hy]))
    have h1 := hw x (by simp)
    have h2 := hm x (by simp)
    simp only [Spec.totalWeight, Spec.weightedSum, List.map_cons, List.sum_cons] at *
    nlinarith

end Verif
