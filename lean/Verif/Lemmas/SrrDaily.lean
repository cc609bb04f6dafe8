import Verif.Spec.Soiling
import Verif.Lemmas.Tactics
import Verif.Lemmas.Percentile

/-! # Lemmas about the daily preparation of the SRR analysis -/

namespace Verif

theorem cellAt_cons_zero (c : Cell) (l : List Cell) : cellAt (c :: l) 0 = c := rfl
theorem cellAt_cons_succ (c : Cell) (l : List Cell) (i : Nat) : cellAt (c :: l) (i + 1) = cellAt l i := by
  simp [cellAt]
theorem cellAt_ge {l : List Cell} {i : Nat} (h : l.length ≤ i) : cellAt l i = none := by
  simp [cellAt, List.getElem?_eq_none h]

theorem ffillLimitFrom_length (lim : Nat) (p : Cell) (k : Nat) (x : List Cell) :
    (ffillLimitFrom lim p k x).length = x.length := by
  induction x generalizing p k with
  | nil => simp [ffillLimitFrom]
  | cons c l ih =>
    cases c with
    | some a => simp [ffillLimitFrom, ih]
    | none => cases k <;> simp [ffillLimitFrom, ih]

theorem ffillLimitFrom_none (lim : Nat) (p : Cell) (k : Nat) (hk : k ≤ lim) (x : List Cell) (i : Nat)
    (hi : i < x.length) :
    cellAt (ffillLimitFrom lim p k x) i = none ↔
      (∀ j, j ≤ i → i ≤ j + lim → cellAt x j = none) ∧
        (i < k → (∀ j, j ≤ i → cellAt x j = none) → p = none) := by
  induction x generalizing p k i with
  | nil => simp at hi
  | cons c l ih =>
    cases c with
    | some a =>
      cases i with
      | zero =>
        rw [show ffillLimitFrom lim p k (some a :: l) = some a :: ffillLimitFrom lim (some a) lim l from by
          cases k <;> rfl]
        simp only [cellAt_cons_zero]
        constructor
        · intro h; exact absurd h (by simp)
        · rintro ⟨h, -⟩; exact h 0 (le_refl _) (by omega)
      | succ i =>
        rw [show ffillLimitFrom lim p k (some a :: l) = some a :: ffillLimitFrom lim (some a) lim l from by
          cases k <;> rfl]
        rw [cellAt_cons_succ, ih (some a) lim (le_refl _) i (by simpa using hi)]
        constructor
        · rintro ⟨h1, h2⟩
          refine ⟨fun j hj hjl => ?_, fun _ h => absurd (h 0 (by omega)) (by simp [cellAt_cons_zero])⟩
          cases j with
          | zero =>
            exact absurd (h2 (by omega) fun j hj => h1 j hj (by omega)) (by simp)
          | succ j => rw [cellAt_cons_succ]; exact h1 j (by omega) (by omega)
        · rintro ⟨h1, h2⟩
          refine ⟨fun j hj hjl => ?_, fun hlt _ => ?_⟩
          · have := h1 (j + 1) (by omega) (by omega)
            rwa [cellAt_cons_succ] at this
          · have := h1 0 (by omega) (by omega)
            exact absurd this (by simp [cellAt_cons_zero])
    | none =>
      cases k with
      | zero =>
        rw [show ffillLimitFrom lim p 0 (none :: l) = none :: ffillLimitFrom lim p 0 l from rfl]
        cases i with
        | zero =>
          simp only [cellAt_cons_zero, true_iff]
          refine ⟨fun j hj _ => ?_, fun h => absurd h (by omega)⟩
          obtain rfl : j = 0 := by omega
          rfl
        | succ i =>
          rw [cellAt_cons_succ, ih p 0 hk i (by simpa using hi)]
          constructor
          · rintro ⟨h1, -⟩
            refine ⟨fun j hj hjl => ?_, fun h => absurd h (by omega)⟩
            cases j with
            | zero => rfl
            | succ j => rw [cellAt_cons_succ]; exact h1 j (by omega) (by omega)
          · rintro ⟨h1, -⟩
            refine ⟨fun j hj hjl => ?_, fun h => absurd h (by omega)⟩
            have := h1 (j + 1) (by omega) (by omega)
            rwa [cellAt_cons_succ] at this
      | succ k =>
        rw [show ffillLimitFrom lim p (k + 1) (none :: l) = p :: ffillLimitFrom lim p k l from rfl]
        cases i with
        | zero =>
          simp only [cellAt_cons_zero]
          constructor
          · intro h
            refine ⟨fun j hj _ => ?_, fun _ _ => h⟩
            obtain rfl : j = 0 := by omega
            rfl
          · rintro ⟨-, h⟩
            refine h (by omega) fun j hj => ?_
            obtain rfl : j = 0 := by omega
            rfl
        | succ i =>
          rw [cellAt_cons_succ, ih p k (by omega) i (by simpa using hi)]
          constructor
          · rintro ⟨h1, h2⟩
            refine ⟨fun j hj hjl => ?_, fun hlt hall => h2 (by omega) fun j hj => ?_⟩
            · cases j with
              | zero => rfl
              | succ j => rw [cellAt_cons_succ]; exact h1 j (by omega) (by omega)
            · have := hall (j + 1) (by omega)
              rwa [cellAt_cons_succ] at this
          · rintro ⟨h1, h2⟩
            refine ⟨fun j hj hjl => ?_, fun hlt hall => h2 (by omega) fun j hj => ?_⟩
            · have := h1 (j + 1) (by omega) (by omega)
              rwa [cellAt_cons_succ] at this
            · cases j with
              | zero => rfl
              | succ j => rw [cellAt_cons_succ]; exact hall j (by omega)

theorem ffillLimit_none {lim : Nat} {x : List Cell} {i : Nat} (hi : i < x.length) :
    cellAt (ffillLimit lim x) i = none ↔ ∀ j, j ≤ i → i ≤ j + lim → cellAt x j = none := by
  unfold ffillLimit
  rw [ffillLimitFrom_none lim none 0 (by omega) x i hi]
  simp

theorem cellAt_reverse {x : List Cell} {i : Nat} (hi : i < x.length) :
    cellAt x.reverse i = cellAt x (x.length - 1 - i) := by
  unfold cellAt
  rw [List.getElem?_reverse hi]

theorem bfillLimit_none {lim : Nat} {x : List Cell} {i : Nat} :
    cellAt (bfillLimit lim x) i = none ↔ ∀ j, i ≤ j → j ≤ i + lim → cellAt x j = none := by
  by_cases hi : i < x.length
  · have hl : (ffillLimit lim x.reverse).length = x.length := by
      unfold ffillLimit; rw [ffillLimitFrom_length]; simp
    unfold bfillLimit
    rw [cellAt_reverse (by rw [hl]; exact hi), hl, ffillLimit_none (by simp; omega)]
    constructor
    · intro h j hj hjl
      by_cases hjn : j < x.length
      · have := h (x.length - 1 - j) (by omega) (by omega)
        rw [cellAt_reverse (by omega)] at this
        rwa [show x.length - 1 - (x.length - 1 - j) = j by omega] at this
      · exact cellAt_ge (by omega)
    · intro h j hj hjl
      rw [cellAt_reverse (by omega)]
      exact h _ (by omega) (by omega)
  · push Not at hi
    have hl : (bfillLimit lim x).length = x.length := by
      unfold bfillLimit ffillLimit; rw [List.length_reverse, ffillLimitFrom_length]; simp
    rw [cellAt_ge (by rw [hl]; exact hi)]
    simp only [true_iff]
    intro j hj _
    exact cellAt_ge (by omega)

theorem outStart_iff {lim : Nat} {x : List Cell} {i : Nat} :
    (outStart lim x)[i]? = some true ↔ Spec.OutageAfter lim x i := by
  unfold outStart Spec.OutageAfter
  rw [List.getElem?_map]
  by_cases hi : i < x.length
  · rw [List.getElem?_range hi]
    simp only [Option.map_some, Option.some.injEq, Bool.and_eq_true, decide_eq_true_eq]
    rw [Option.isNone_iff_eq_none, bfillLimit_none, Option.isSome_iff_exists]
    constructor
    · rintro ⟨⟨h1, h2⟩, h3⟩
      exact ⟨by omega, h1, fun k hk hk2 => h2 k (by omega) hk2⟩
    · rintro ⟨h1, h2, h3⟩
      exact ⟨⟨h2, fun k hk hk2 => h3 k (by omega) hk2⟩, by omega⟩
  · rw [List.getElem?_eq_none (by simpa using hi)]
    simp only [Option.map_none, reduceCtorEq, false_iff]
    rintro ⟨h, -⟩; omega

theorem outEnd_iff {lim : Nat} {x : List Cell} {i : Nat} :
    (outEnd lim x)[i]? = some true ↔ Spec.OutageBefore lim x i := by
  unfold outEnd Spec.OutageBefore
  rw [List.getElem?_map]
  by_cases hi : i < x.length
  · rw [List.getElem?_range hi]
    simp only [Option.map_some, Option.some.injEq, Bool.and_eq_true, decide_eq_true_eq]
    rw [Option.isNone_iff_eq_none, ffillLimit_none (by omega), Option.isSome_iff_exists]
    constructor
    · rintro ⟨⟨h1, h2⟩, h3⟩
      exact ⟨by omega, hi, h1, fun k hk hk2 => h2 k (by omega) (by omega)⟩
    · rintro ⟨h0, -, h2, h3⟩
      exact ⟨⟨h2, fun k hk hk2 => h3 k (by omega) (by omega)⟩, by omega⟩
  · rw [List.getElem?_eq_none (by simpa using hi)]
    simp only [Option.map_none, reduceCtorEq, false_iff]
    rintro ⟨-, h, -⟩; omega

theorem anyNear_iff {b : List Bool} {i : Nat} (hi : i < b.length) :
    (anyNear b)[i]? = some true ↔ Spec.RainNear b i := by
  unfold anyNear Spec.RainNear
  rw [List.getElem?_map, List.getElem?_range hi]
  simp only [Option.map_some, Option.some.injEq, Bool.or_eq_true, Bool.and_eq_true, decide_eq_true_eq]
  have g : ∀ k, b.getD k false = true ↔ b[k]? = some true := by
    intro k
    rw [List.getD_eq_getElem?_getD]
    cases b[k]? <;> simp
  rw [g, g, g]
  constructor
  · rintro ((h | ⟨h0, h⟩) | h)
    · exact ⟨i, h, Or.inl rfl⟩
    · exact ⟨i - 1, h, Or.inr (Or.inl (by omega))⟩
    · exact ⟨i + 1, h, Or.inr (Or.inr rfl)⟩
  · rintro ⟨k, h, rfl | h2 | rfl⟩
    · exact Or.inl (Or.inl h)
    · obtain rfl : k = i - 1 := by omega
      exact Or.inl (Or.inr ⟨by omega, h⟩)
    · exact Or.inr h

theorem anyNear_length (b : List Bool) : (anyNear b).length = b.length := by simp [anyNear]
theorem outStart_length (lim : Nat) (x : List Cell) : (outStart lim x).length = x.length := by
  simp [outStart]
theorem outEnd_length (lim : Nat) (x : List Cell) : (outEnd lim x).length = x.length := by simp [outEnd]

theorem getElem?_zipWith_or {a b : List Bool} {i : Nat} (ha : i < a.length) (hb : i < b.length) :
    (List.zipWith or a b)[i]? = some true ↔ a[i]? = some true ∨ b[i]? = some true := by
  rw [List.getElem?_zipWith, List.getElem?_eq_getElem ha, List.getElem?_eq_getElem hb]
  simp

theorem getElem?_zipWith_and {a b : List Bool} {i : Nat} (ha : i < a.length) (hb : i < b.length) :
    (List.zipWith and a b)[i]? = some true ↔ a[i]? = some true ∧ b[i]? = some true := by
  rw [List.getElem?_zipWith, List.getElem?_eq_getElem ha, List.getElem?_eq_getElem hb]
  simp

theorem srrCriterion_length {c : CleanCriterion} {det rain ev : List Bool}
    (hlen : det.length = rain.length) (h : srrCriterion c det rain = .ok ev) : ev.length = rain.length := by
  cases c <;> simp only [srrCriterion, Except.ok.injEq, reduceCtorEq] at h <;> subst h <;>
    simp [anyNear_length, hlen]

theorem srrCriterion_iff {c : CleanCriterion} {det rain ev : List Bool} (hlen : det.length = rain.length)
    (h : srrCriterion c det rain = .ok ev) {i : Nat} (hi : i < rain.length) :
    ev[i]? = some true ↔ Spec.CleanedBy c det rain i := by
  cases c <;> simp only [srrCriterion, Except.ok.injEq, reduceCtorEq] at h <;> subst h <;>
    simp only [Spec.CleanedBy]
  · rw [getElem?_zipWith_and (by omega) (by rw [anyNear_length]; exact hi), anyNear_iff hi]
  · rw [getElem?_zipWith_or (by omega) hi]

theorem cumsumFrom_getElem? (ev : List Bool) (k i : Nat) (hi : i < ev.length) :
    (cumsumFrom k ev)[i]? = some (k + (ev.take (i + 1)).count true) := by
  induction ev generalizing k i with
  | nil => simp at hi
  | cons b l ih =>
    cases i with
    | zero => cases b <;> simp [cumsumFrom]
    | succ i =>
      rw [cumsumFrom, List.getElem?_cons_succ, ih _ _ (by simpa using hi)]
      cases b <;> simp [List.take_succ_cons] ; omega

theorem cumsumFrom_length (ev : List Bool) (k : Nat) : (cumsumFrom k ev).length = ev.length := by
  induction ev generalizing k with
  | nil => rfl
  | cons b l ih => simp [cumsumFrom, ih]

theorem srrRows_length (df : List SrrDay) (x delta : List Cell) (ev : List Bool) :
    (srrRows df x delta ev).length = df.length := by simp [srrRows]

theorem srrRows_getElem {df : List SrrDay} {x delta : List Cell} {ev : List Bool} {i : Nat}
    (hi : i < df.length) (hev : ev.length = df.length) :
    (srrRows df x delta ev)[i]'(by rw [srrRows_length]; exact hi) =
      { t := df[i].t, day := i, pi := df[i].pi.getD 0, insol := df[i].insol.getD 0
        piNorm := (cellAt x i).getD 0, delta := (cellAt delta i).getD 0
        event := ev[i]'(by omega), run := (ev.take (i + 1)).count true } := by
  unfold srrRows
  simp only [List.getElem_map, List.getElem_range]
  have h1 : df.getD i ⟨0, none, none, none⟩ = df[i] := by simp [List.getD_eq_getElem?_getD, hi]
  have h2 : ev.getD i false = ev[i]'(by omega) := by
    simp [List.getD_eq_getElem?_getD, show i < ev.length by omega]
  have h3 : (cumsumFrom 0 ev).getD i 0 = (ev.take (i + 1)).count true := by
    rw [List.getD_eq_getElem?_getD, cumsumFrom_getElem? ev 0 i (by omega)]; simp
  rw [h1, h2, h3]

/-- what a successful daily preparation computed -/
theorem calcDailyDf_ok {o : DailyOpts} {pm insol : Series} {precip : Option Series}
    {r : Cell × List SrrRow} (h : calcDailyDf o pm insol precip = .ok r) :
    trimMissing (srrJoin pm insol precip) ≠ [] ∧ o.dayScale ≠ 0 ∧
    ∃ ev, srrCriterion o.criterion
        (srrDetected o (srrDelta o.dayScale (srrNorm (srrRenorm o.recenter
          ((trimMissing (srrJoin pm insol precip)).map SrrDay.pi))
          ((trimMissing (srrJoin pm insol precip)).map SrrDay.pi))))
        ((trimMissing (srrJoin pm insol precip)).map (rainy o.precipThreshold)) = .ok ev ∧
      r.1 = srrRenorm o.recenter ((trimMissing (srrJoin pm insol precip)).map SrrDay.pi) ∧
      r.2 = srrRows (trimMissing (srrJoin pm insol precip))
        (srrNorm r.1 ((trimMissing (srrJoin pm insol precip)).map SrrDay.pi))
        (srrDelta o.dayScale (srrNorm r.1 ((trimMissing (srrJoin pm insol precip)).map SrrDay.pi)))
        (withOutages o.dayScale (srrNorm r.1 ((trimMissing (srrJoin pm insol precip)).map SrrDay.pi)) ev) := by
  unfold calcDailyDf at h
  simp only at h
  split_ifs at h with h1 h2
  refine ⟨h1, h2, ?_⟩
  cases hc : srrCriterion o.criterion
      (srrDetected o (srrDelta o.dayScale (srrNorm (srrRenorm o.recenter
        ((trimMissing (srrJoin pm insol precip)).map SrrDay.pi))
        ((trimMissing (srrJoin pm insol precip)).map SrrDay.pi))))
      ((trimMissing (srrJoin pm insol precip)).map (rainy o.precipThreshold)) with
  | error e => rw [hc] at h; simp [Except.map] at h
  | ok ev =>
    rw [hc] at h
    simp only [Except.map, Except.ok.injEq] at h
    subst h
    exact ⟨ev, rfl, rfl, rfl⟩

theorem srrDelta_length (w : Nat) (x : List Cell) : (srrDelta w x).length = x.length := by
  simp [srrDelta, cellDiff, rollMedianC, ffillLimit, ffillLimitFrom_length]

theorem srrNorm_length (r : Cell) (x : List Cell) : (srrNorm r x).length = x.length := by simp [srrNorm]

theorem withOutages_length {w : Nat} {x : List Cell} {ev : List Bool} (h : ev.length = x.length) :
    (withOutages w x ev).length = x.length := by
  simp [withOutages, outStart_length, outEnd_length, h]

theorem withOutages_iff {w : Nat} {x : List Cell} {ev : List Bool} (h : ev.length = x.length) {i : Nat}
    (hi : i < x.length) :
    (withOutages w x ev)[i]? = some true ↔
      ev[i]? = some true ∨ Spec.OutageAfter w x i ∨ Spec.OutageBefore w x i := by
  unfold withOutages
  rw [getElem?_zipWith_or (by simp [outStart_length, h]; exact hi) (by rw [outEnd_length]; exact hi),
    getElem?_zipWith_or (by omega) (by rw [outStart_length]; exact hi), outStart_iff, outEnd_iff, or_assoc]

/-- the analysed days are a contiguous part of the data -/
theorem trimMissing_infix (df : List SrrDay) : trimMissing df <:+: df := by
  unfold trimMissing
  have h1 : (df.dropWhile fun d => d.pi.isNone) <:+ df := List.dropWhile_suffix _
  have h2 : ((df.dropWhile fun d => d.pi.isNone).reverse.dropWhile fun d => d.pi.isNone).reverse <+:
      (df.dropWhile fun d => d.pi.isNone) := by
    have := List.dropWhile_suffix (l := (df.dropWhile fun d => d.pi.isNone).reverse)
      (fun d : SrrDay => d.pi.isNone)
    rw [← List.reverse_prefix] at this
    simpa using this
  exact h2.isInfix.trans h1.isInfix

theorem dayStepped_getElem {l : List Int} (h : dayStepped l = true) {i : Nat} (hi : i + 1 < l.length) :
    l[i + 1] = l[i] + dayNs := by
  induction l generalizing i with
  | nil => simp at hi
  | cons a l ih =>
    cases l with
    | nil => simp at hi
    | cons b l =>
      simp only [dayStepped, Bool.and_eq_true, decide_eq_true_eq] at h
      cases i with
      | zero => exact h.1
      | succ i => exact ih h.2 (by simpa using hi)

end Verif
