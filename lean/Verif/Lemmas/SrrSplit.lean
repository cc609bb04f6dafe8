import Verif.Lemmas.SrrTable
import Mathlib.Data.List.TakeWhile

/-! # The analysed days of the SRR analysis as a part of the performance series -/

namespace Verif

/-- the day made of one reading of the performance series -/
def joinDay (insol : Series) (precip : Option Series) (x : Int × Cell) : SrrDay :=
  ⟨x.1, x.2, lookupK insol x.1,
    match precip with
    | none => some 0
    | some p => lookupK p x.1⟩

theorem srrJoin_eq (pm insol : Series) (precip : Option Series) :
    srrJoin pm insol precip = pm.map (joinDay insol precip) := rfl

/-- the part of the performance series from the first to the last present value -/
def presentPart (pm : Series) : Series :=
  ((pm.dropWhile fun x => x.2.isNone).reverse.dropWhile fun x => x.2.isNone).reverse

theorem trimMissing_join (pm insol : Series) (precip : Option Series) :
    trimMissing (srrJoin pm insol precip) = (presentPart pm).map (joinDay insol precip) := by
  rw [srrJoin_eq]
  unfold trimMissing presentPart
  rw [List.dropWhile_map, ← List.map_reverse, List.dropWhile_map, ← List.map_reverse]
  rfl

theorem presentPart_split {pm : Series} (hmne : presentPart pm ≠ []) :
    ∃ before after : Series, pm = before ++ presentPart pm ++ after ∧
      (∀ x ∈ before ++ after, x.2 = none) ∧ ∃ t v, (presentPart pm).head? = some (t, some v) := by
  set mid := presentPart pm with hmid
  unfold presentPart at hmid
  refine ⟨pm.takeWhile fun x => x.2.isNone,
    (((pm.dropWhile fun x => x.2.isNone).reverse.takeWhile fun x => x.2.isNone)).reverse, ?_, ?_, ?_⟩
  · rw [hmid, List.append_assoc, ← List.reverse_append, List.takeWhile_append_dropWhile,
      List.reverse_reverse, List.takeWhile_append_dropWhile]
  · intro x hx
    rw [List.mem_append, List.mem_reverse] at hx
    rcases hx with hx | hx
    · simpa using List.mem_takeWhile_imp hx
    · simpa using List.mem_takeWhile_imp hx
  · have hd : ∃ x l, (pm.dropWhile fun x => x.2.isNone) = x :: l := by
      cases hc : (pm.dropWhile fun x => x.2.isNone) with
      | nil => rw [hc] at hmid; exact absurd (by simpa using hmid) hmne
      | cons x l => exact ⟨x, l, rfl⟩
    obtain ⟨x, l, hxl⟩ := hd
    have hx : x.2.isNone = false := by
      have := List.head_dropWhile_not (p := fun x : Int × Cell => x.2.isNone) (l := pm) (by rw [hxl]; simp)
      simpa [hxl] using this
    have hhead : mid.head? = some x := by
      rw [hmid, List.head?_reverse, hxl, List.reverse_cons]
      have : ∀ L : List (Int × Cell), ((L ++ [x]).dropWhile fun x => x.2.isNone).getLast? = some x := by
        intro L
        induction L with
        | nil => simp [hx]
        | cons y L ih =>
          rw [List.cons_append, List.dropWhile_cons]
          split_ifs with g
          · exact ih
          · rw [← List.cons_append, List.getLast?_append]; simp
      exact this _
    obtain ⟨t, c⟩ := x
    cases c with
    | none => simp at hx
    | some v => exact ⟨t, v, hhead⟩

theorem srrInit_daily {pm insol : Series} {precip : Option Series}
    (hinit : srrInit pm insol precip = .ok ()) : dayStepped pm.index = true := by
  unfold srrInit at hinit
  split_ifs at hinit with g
  all_goals
    simp only [isDaily, Bool.not_eq_false, Bool.and_eq_true] at g
    exact g.2

/-- in a daily series, the rows up to `k` days after the first one are the first `k + 1` rows -/
theorem filter_days_take (L : Series) (hd : dayStepped L.index = true) (t : Int)
    (ht : ∀ x ∈ L.head?, x.1 = t) (k : Nat) :
    (L.filter fun x => decide (t ≤ x.1 ∧ x.1 ≤ t + (k : Int) * dayNs)) = L.take (k + 1) := by
  have key : ∀ i (hi : i < L.length), L[i].1 = t + (i : Int) * dayNs := by
    intro i
    induction i with
    | zero =>
      intro hi
      have : L.head? = some L[0] := List.head?_eq_getElem? .. ▸ List.getElem?_eq_getElem hi
      rw [ht _ this]; simp
    | succ i ih =>
      intro hi
      have := dayStepped_getElem hd (i := i) (by simpa [Series.index] using hi)
      simp only [Series.index, List.getElem_map] at this
      rw [this, ih (by omega)]; push_cast; ring
  have hpos : (0 : Int) < dayNs := by decide
  conv_lhs => rw [← List.take_append_drop (k + 1) L]
  rw [List.filter_append]
  have h1 : ((L.take (k + 1)).filter fun x => decide (t ≤ x.1 ∧ x.1 ≤ t + (k : Int) * dayNs)) =
      L.take (k + 1) := by
    rw [List.filter_eq_self]
    intro x hx
    obtain ⟨i, hi, rfl⟩ := List.getElem_of_mem hx
    simp only [List.length_take] at hi
    rw [List.getElem_take, key i (by omega)]
    have : (i : Int) ≤ k := by omega
    have h2 : (i : Int) * dayNs ≤ k * dayNs := Int.mul_le_mul_of_nonneg_right this hpos.le
    have h3 : (0 : Int) ≤ i * dayNs := Int.mul_nonneg (by omega) hpos.le
    simp; omega
  have h2 : ((L.drop (k + 1)).filter fun x => decide (t ≤ x.1 ∧ x.1 ≤ t + (k : Int) * dayNs)) = [] := by
    rw [List.filter_eq_nil_iff]
    intro x hx
    obtain ⟨i, hi, rfl⟩ := List.getElem_of_mem hx
    simp only [List.length_drop] at hi
    rw [List.getElem_drop, key (k + 1 + i) (by omega)]
    have : (k : Int) + 1 ≤ (k + 1 + i : Nat) := by push_cast; omega
    have h2 : ((k : Int) + 1) * dayNs ≤ (k + 1 + i : Nat) * dayNs :=
      Int.mul_le_mul_of_nonneg_right this hpos.le
    rw [Int.add_mul] at h2
    push_cast at h2 ⊢
    simp; omega
  rw [h1, h2, List.append_nil]

theorem dayStepped_right {a b : List Int} (h : dayStepped (a ++ b) = true) : dayStepped b = true := by
  induction a with
  | nil => exact h
  | cons x a ih =>
    apply ih
    rw [List.cons_append] at h
    cases hab : a ++ b with
    | nil => rfl
    | cons y l => rw [hab] at h; simp only [dayStepped, Bool.and_eq_true] at h; exact h.2

theorem dayStepped_lt {a : List Int} {y : Int} {b : List Int} (h : dayStepped (a ++ y :: b) = true) :
    ∀ x ∈ a, x < y := by
  induction a with
  | nil => simp
  | cons x a ih =>
    have hpos : (0 : Int) < dayNs := by decide
    have h' : dayStepped (a ++ y :: b) = true := dayStepped_right (a := [x]) h
    intro z hz
    rcases List.mem_cons.mp hz with rfl | hz
    · cases a with
      | nil => simp only [List.cons_append, List.nil_append, dayStepped, Bool.and_eq_true, decide_eq_true_eq] at h; omega
      | cons w a =>
        simp only [List.cons_append, dayStepped, Bool.and_eq_true, decide_eq_true_eq] at h
        have := ih h' w (by simp)
        omega
    · exact ih h' z hz

end Verif
