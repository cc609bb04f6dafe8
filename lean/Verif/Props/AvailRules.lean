import Verif.Props.AvailEnergy
import Verif.Props.AvailSubsystem
import Verif.Lemmas.Quantile

/-! # Property C99 (the rules of the subsystem analysis and the error band, stated exactly) -/

namespace Verif
open Avail

/-! ## which subsystems count as reporting -/

namespace Spec
/-- the record of subsystem `j` in a row, a missing one counted as zero -/
def recorded (row : List Cell) (j : Nat) : ℚ := (row.getD j none).getD 0
end Spec
open Spec

theorem getElem?_fillRow {row : List Cell} {j : Nat} (h : j < row.length) :
    (fillRow row)[j]? = some (recorded row j) := by
  unfold fillRow recorded
  rw [List.getElem?_map, List.getD_eq_getElem?_getD, List.getElem?_eq_getElem h]
  rfl

theorem getD_fillRow (row : List Cell) (j : Nat) : (fillRow row).getD j 0 = recorded row j := by
  unfold fillRow recorded
  rw [List.getD_eq_getElem?_getD, List.getElem?_map, List.getD_eq_getElem?_getD]
  cases row[j]? <;> rfl

/-- **C99 (default thresholds).** Without given thresholds a subsystem is reporting in exactly those rows
where its recorded power exceeds a thousandth of the 99 % quantile of its own record. -/
theorem C99_reporting {a : Args} {i : Input} (ha : a.thresholds = none) {k j : Nat} {row : List Cell}
    (hk : i.subs[k]? = some row) (hj : j < i.ncols) (hw : row.length = i.ncols) :
    ∃ q : ℚ, IsQuantile (i.subs.map fun r => recorded r j) (99 / 100) q ∧
      ∃ m : List Bool, (lossSubsystem a i).mask[k]? = some m ∧
        m[j]? = some (decide (q / 1000 < recorded row j)) := by
  have hne : (i.subs.map fun r => recorded r j) ≠ [] := by
    intro h
    rw [List.map_eq_nil_iff] at h
    rw [h] at hk
    simp at hk
  obtain ⟨q, hq⟩ := Option.isSome_iff_exists.mp
    (quantile_isSome.mpr hne : (quantile (i.subs.map fun r => recorded r j) (99 / 100)).isSome)
  refine ⟨q, (isQuantile_iff (by norm_num) (by norm_num)).mpr hq, onlineRow (thresholdsOf a i) (fillRow row), ?_, ?_⟩
  · unfold lossSubsystem
    simp only
    rw [List.getElem?_map, hk]
    rfl
  · unfold onlineRow
    rw [List.getElem?_zipWith, getElem?_fillRow (hw ▸ hj)]
    have : (thresholdsOf a i)[j]? = some (some (q / 1000)) := by
      unfold thresholdsOf
      rw [ha, Option.getD_none]
      unfold defaultThresholds
      rw [List.getElem?_map, List.getElem?_range hj]
      simp only [Option.map_some, getD_fillRow, hq]
    rw [this]
    rfl

/-- **C99 (given thresholds).** With given thresholds a subsystem is reporting in exactly those rows where
its recorded power exceeds its threshold. -/
theorem C99_reporting_given {a : Args} {i : Input} {th : List Cell} (ha : a.thresholds = some th) {k j : Nat}
    {row : List Cell} (hk : i.subs[k]? = some row) (hj : j < i.ncols) (hw : row.length = i.ncols) {t : ℚ}
    (ht : th[j]? = some (some t)) :
    ∃ m : List Bool, (lossSubsystem a i).mask[k]? = some m ∧ m[j]? = some (decide (t < recorded row j)) := by
  refine ⟨onlineRow (thresholdsOf a i) (fillRow row), ?_, ?_⟩
  · unfold lossSubsystem
    simp only
    rw [List.getElem?_map, hk]
    rfl
  · unfold onlineRow
    rw [List.getElem?_zipWith, getElem?_fillRow (hw ▸ hj)]
    have : (thresholdsOf a i)[j]? = some (some t) := by
      unfold thresholdsOf
      rw [ha, Option.getD_some, ht]
    rw [this]
    rfl

/-! ## the loss of one timestamp -/

namespace Spec
/-- one subsystem at one timestamp; `size` is missing if it could not be estimated -/
structure Sub where
  threshold : ℚ
  size : Cell
  power : Cell

namespace Sub
/-- it reports -/
def On (x : Sub) : Prop := x.threshold < x.power.getD 0
instance (x : Sub) : Decidable x.On := inferInstanceAs (Decidable (_ < _))
/-- its size is known and it reports (`b = true`) resp. does not (`b = false`) -/
def sized (b : Bool) (x : Sub) : Option (Sub × ℚ) := if decide x.On = b then x.size.map (x, ·) else none
end Sub

/-- the subsystems of known size that report resp. do not, with their sizes -/
def sized (b : Bool) (u : List Sub) : List (Sub × ℚ) := u.filterMap (Sub.sized b)

/-- sum of the known sizes -/
def totalSize (u : List Sub) : ℚ := (u.map fun x => x.size.getD 0).sum

/-- the power the whole system would have at the average output per size of the reporting subsystems -/
def IsFullPower (u : List Sub) (v : ℚ) : Prop :=
  sized true u ≠ [] ∧
    v = u.length * (((sized true u).map fun x => x.1.power.getD 0 / x.2).sum / (sized true u).length)

/-- the smallest share of the total size among the subsystems that do not report; the whole if none of
them has a known size -/
def IsSmallestShare (u : List Sub) (m : ℚ) : Prop :=
  ((∃ x ∈ sized false u, m = x.2 / totalSize u) ∧ ∀ x ∈ sized false u, m ≤ x.2 / totalSize u) ∨
  (sized false u = [] ∧ m = 1)

/-- share of the total size that reports -/
def onlineShare (u : List Sub) : ℚ := ((sized true u).map Prod.snd).sum / totalSize u

/-- loss according to the documented rule, before the plant limit -/
def IsLoss (u : List Sub) (P loss : ℚ) : Prop :=
  ∃ V m : ℚ, IsFullPower u V ∧ IsSmallestShare u m ∧
    if (∃ x ∈ u, ¬ x.On) ∧ P / V < 1 - 3 / 4 * m then
      ∃ f : ℚ, f = min 1 (max (onlineShare u) (P / V)) ∧ loss = P * (1 - f) / f
    else loss = 0
end Spec

theorem map_eq_filterMap_sized (u : List Sub) (b : Bool) (g : Sub → ℚ → ℚ) (hg : ∀ x : Sub, ∀ s : ℚ, x ∈ u → x.size = some s → s ≠ 0) :
    valids (u.map fun x => if decide x.On = b then x.size.bind fun s => if s = 0 then none else some (g x s) else none) =
      (sized b u).map fun x => g x.1 x.2 := by
  induction u with
  | nil => rfl
  | cons x u ih =>
    have ih := ih fun y s hy => hg y s (by simp [hy])
    unfold Spec.sized valids at ih ⊢
    rw [List.map_cons, List.filterMap_cons, List.filterMap_cons, ih]
    unfold Spec.Sub.sized
    by_cases h : decide x.On = b
    · rw [if_pos h, if_pos h]
      cases hs : x.size with
      | none => rfl
      | some s => simp [hg x s (by simp) hs]
    · rw [if_neg h, if_neg h]
      rfl

theorem foldl_min_mem {l : List ℚ} {a : ℚ} : l.foldl min a = a ∨ l.foldl min a ∈ l := by
  induction l generalizing a with
  | nil => exact Or.inl rfl
  | cons b l ih =>
    rw [List.foldl_cons]
    rcases ih (a := min a b) with h | h
    · rw [h]
      rcases le_total a b with hab | hab
      · exact Or.inl (min_eq_left hab)
      · exact Or.inr (by rw [min_eq_right hab]; simp)
    · exact Or.inr (by simp [h])

/-- **C99 (loss rule).** The loss of a timestamp, for thresholds not below zero, positive known sizes, at
least one reporting subsystem of known size and a non-negative meter reading: with the plant's full power
estimated from the reporting subsystems, there is a loss exactly if some subsystem does not report and the
meter is below full power by more than three quarters of the smallest missing share; the loss is then
what the meter lacks to full power, where the reporting share limits it. -/
theorem C99_loss_rule {u : List Sub} (hth : ∀ x ∈ u, 0 ≤ x.threshold) (hs : ∀ x ∈ u, ∀ s : ℚ, x.size = some s → 0 < s)
    (hon : ∃ x ∈ u, x.On ∧ x.size ≠ none) {P : ℚ} (hP : 0 ≤ P) (limit : Cell) :
    ∃ raw : ℚ, IsLoss u P raw ∧
      lossRow (u.map fun x => some x.threshold) (u.map (·.size)) limit (some P) (u.map (·.power)) =
        match limit with
        | none => raw
        | some L => if L < raw + P then max 0 (L - P) else raw := by
  have hs' : ∀ x : Sub, ∀ s : ℚ, x ∈ u → x.size = some s → s ≠ 0 := fun x s hx e => (hs x hx s e).ne'
  have hfill : fillRow (u.map (·.power)) = u.map fun x => x.power.getD 0 := by
    unfold fillRow; rw [List.map_map]; rfl
  have hon' : onlineRow (u.map fun x => some x.threshold) (u.map fun x => x.power.getD 0) = u.map fun x => decide x.On := by
    unfold onlineRow
    rw [zipWith_maps]
    rfl
  have hrep : reportingRow (u.map fun x => some x.threshold) (u.map fun x => x.power.getD 0) =
      u.map fun x => if decide x.On = true then some (x.power.getD 0) else none := by
    unfold reportingRow
    rw [hon', zipWith_maps]
  have hne : sized true u ≠ [] := by
    obtain ⟨x, hx, hxo, hxs⟩ := hon
    obtain ⟨s, hs⟩ := Option.ne_none_iff_exists'.mp hxs
    have : (x, s) ∈ sized true u := by
      unfold Spec.sized
      rw [List.mem_filterMap]
      exact ⟨x, hx, by unfold Spec.Sub.sized; simp [hxo, hs]⟩
    exact List.ne_nil_of_mem this
  have hmem : ∀ b : Bool, ∀ x ∈ sized b u, x.1 ∈ u ∧ x.1.size = some x.2 ∧ decide x.1.On = b := by
    intro b x hx
    unfold Spec.sized at hx
    obtain ⟨y, hy, e⟩ := List.mem_filterMap.mp hx
    unfold Spec.Sub.sized at e
    by_cases h : decide y.On = b
    · rw [if_pos h, Option.map_eq_some_iff] at e
      obtain ⟨s, e1, e2⟩ := e
      subst e2
      exact ⟨hy, e1, h⟩
    · rw [if_neg h] at e; simp at e
  set V : ℚ := u.length * (((sized true u).map fun x => x.1.power.getD 0 / x.2).sum / (sized true u).length) with hV
  have hlen : (0 : ℚ) < u.length := by
    obtain ⟨x, hx, -⟩ := hon
    exact_mod_cast List.length_pos_of_mem hx
  have hlen2 : (0 : ℚ) < (sized true u).length := by exact_mod_cast List.length_pos_iff.mpr hne
  have hVpos : 0 < V := by
    rw [hV]
    refine mul_pos hlen (div_pos ?_ hlen2)
    apply List.sum_pos
    · intro y hy
      obtain ⟨x, hx, rfl⟩ := List.mem_map.mp hy
      obtain ⟨h1, h2, h3⟩ := hmem true x hx
      have h3 : x.1.threshold < x.1.power.getD 0 := of_decide_eq_true h3
      exact div_pos (lt_of_le_of_lt (hth _ h1) h3) (hs _ h1 _ h2)
    · simpa using hne
  have hvirt : virtualFull (u.map (·.size)) (u.map fun x => if decide x.On = true then some (x.power.getD 0) else none) = some V := by
    unfold virtualFull
    rw [zipWith_maps]
    have : (u.map fun x => cellDiv (if decide x.On = true then some (x.power.getD 0) else none) x.size) =
        u.map fun x => if decide x.On = true then x.size.bind fun s => if s = 0 then none else some (x.power.getD 0 / s) else none := by
      apply List.map_congr_left
      intro x _
      by_cases h : decide x.On = true
      · rw [if_pos h, if_pos h]; rfl
      · rw [if_neg h, if_neg h]; rfl
    rw [this, map_eq_filterMap_sized u true (fun x s => x.power.getD 0 / s) hs']
    have hmean : ∀ l : List ℚ, l ≠ [] → mean l = some (l.sum / l.length) := by
      intro l hl
      cases l with
      | nil => exact absurd rfl hl
      | cons a l => rfl
    rw [hmean _ (by simpa using hne), Option.map_some, List.length_map, List.length_map, hV, mul_comm]
  have htot : (valids (u.map (·.size))).sum = totalSize u := by
    unfold totalSize valids
    clear hth hs hon hs' hfill hon' hrep hne hmem hV V hlen hlen2 hVpos hvirt
    induction u with
    | nil => rfl
    | cons x u ih =>
      rw [List.map_cons, List.filterMap_cons, List.map_cons, List.sum_cons, ← ih]
      cases x.size <;> simp
  have hge : ∀ x ∈ u, 0 ≤ x.size.getD 0 := by
    intro x hx
    cases h : x.size with
    | none => exact le_refl _
    | some s => exact (hs x hx s h).le
  have htpos : 0 < totalSize u := by
    obtain ⟨x, hx, hxo, hxs⟩ := hon
    obtain ⟨s, e⟩ := Option.ne_none_iff_exists'.mp hxs
    refine lt_of_lt_of_le (hs x hx s e) ?_
    unfold totalSize
    have : s = x.size.getD 0 := by rw [e]; rfl
    rw [this]
    exact List.single_le_sum (fun y hy => by
      obtain ⟨z, hz, rfl⟩ := List.mem_map.mp hy
      exact hge z hz) _ (List.mem_map_of_mem (f := fun x : Sub => x.size.getD 0) hx)
  have hfrac : fractions (u.map (·.size)) = u.map fun x => x.size.map (· / totalSize u) := by
    unfold fractions
    rw [htot, List.map_map]
    apply List.map_congr_left
    intro x _
    simp only [Function.comp]
    cases x.size with
    | none => rfl
    | some s => simp [cellDiv, htpos.ne']
  have hlow : lowestPossible (u.map fun x => some x.threshold) (u.map (·.size)) (u.map fun x => x.power.getD 0) = onlineShare u := by
    unfold lowestPossible onlineShare
    rw [hon', hfrac, zipWith_maps]
    generalize totalSize u = T
    clear hth hs hon hs' hfill hon' hrep hne hmem hV V hlen hlen2 hVpos hvirt htot hge htpos hfrac
    induction u with
    | nil => simp [Spec.sized, valids]
    | cons x u ih =>
      have e1 : sized true (x :: u) = (Spec.Sub.sized true x).toList ++ sized true u := by
        unfold Spec.sized
        rw [List.filterMap_cons]
        cases Spec.Sub.sized true x <;> rfl
      have e2 : ∀ (c : Cell) (l : List Cell), (valids (c :: l)).sum = c.getD 0 + (valids l).sum := by
        intro c l
        unfold valids
        cases c <;> simp
      rw [List.map_cons, e2, ih, e1, List.map_append, List.sum_append]
      unfold Spec.Sub.sized
      cases hz : x.size with
      | none => simp
      | some s =>
        by_cases h : decide x.On = true
        · simp only [Option.map_some, if_pos h, Option.getD_some, Option.toList_some, List.map_cons, List.map_nil,
            List.sum_cons, List.sum_nil]
          ring
        · simp only [Option.map_some, if_neg h, Option.getD_some, Option.toList_none, List.map_nil, List.sum_nil]
          ring
  obtain ⟨m, hm, hsm⟩ : ∃ m, IsSmallestShare u m ∧
      smallestDelta (u.map fun x => some x.threshold) (u.map (·.size)) (u.map fun x => x.power.getD 0) = m := by
    refine ⟨_, ?_, rfl⟩
    unfold smallestDelta
    rw [zipWith_maps, hfrac, zipWith_maps]
    have e : (u.map fun x => if cellCmp (fun a b : ℚ => decide (b ≤ a)) (some x.threshold) (some (x.power.getD 0)) = true
        then x.size.map (· / totalSize u) else none) =
        u.map fun x => if decide x.On = false then x.size.bind fun s => if s = 0 then none else some (s / totalSize u) else none := by
      apply List.map_congr_left
      intro x hx
      have hiff : cellCmp (fun a b : ℚ => decide (b ≤ a)) (some x.threshold) (some (x.power.getD 0)) = true ↔ decide x.On = false := by
        simp only [cellCmp, decide_eq_true_eq]
        exact ⟨fun h => decide_eq_false (p := x.On) (not_lt.mpr h), fun h => not_lt.mp (of_decide_eq_false h)⟩
      by_cases h : decide x.On = false
      · rw [if_pos (hiff.mpr h), if_pos h]
        cases hz : x.size with
        | none => rfl
        | some s => simp [hs' x s hx hz]
      · rw [if_neg (fun c => h (hiff.mp c)), if_neg h]
    rw [e]
    unfold minCell
    rw [map_eq_filterMap_sized u false (fun _ s => s / totalSize u) hs']
    unfold IsSmallestShare
    cases hl : sized false u with
    | nil => exact Or.inr ⟨rfl, rfl⟩
    | cons a l =>
      left
      simp only [List.map_cons, Option.getD_some]
      constructor
      · rcases foldl_min_mem (l := l.map fun x => x.2 / totalSize u) (a := a.2 / totalSize u) with h | h
        · exact ⟨a, by simp, h⟩
        · obtain ⟨y, hy, e⟩ := List.mem_map.mp h
          exact ⟨y, by simp [hy], e.symm⟩
      · intro x hx
        apply foldl_min_le_cell
        rcases List.mem_cons.mp hx with rfl | hx
        · exact Or.inl rfl
        · exact Or.inr (List.mem_map_of_mem (f := fun x : Sub × ℚ => x.2 / totalSize u) hx)
  have hq : cellDiv (some P) (some V) = some (P / V) := by
    simp [cellDiv, hVpos.ne']
  have hdt : isDowntime (u.map fun x => some x.threshold) (u.map (·.size)) (u.map fun x => x.power.getD 0) (some P) = true ↔
      (∃ x ∈ u, ¬ x.On) ∧ P / V < 1 - 3 / 4 * m := by
    unfold isDowntime
    simp only [hrep, hvirt, hq, hon', hsm, cellOp, cellCmp]
    rw [Bool.and_eq_true, decide_eq_true_eq, Bool.not_eq_true', List.all_eq_false]
    constructor
    · rintro ⟨h1, b, hb, h2⟩
      obtain ⟨x, hx, rfl⟩ := List.mem_map.mp hb
      exact ⟨⟨x, hx, by simpa using h2⟩, by linarith⟩
    · rintro ⟨⟨x, hx, h2⟩, h1⟩
      exact ⟨by linarith, decide x.On, List.mem_map_of_mem (f := fun x : Sub => decide x.On) hx, by simpa using h2⟩
  have hshare : 0 < onlineShare u := by
    unfold onlineShare
    refine div_pos ?_ htpos
    apply List.sum_pos
    · intro y hy
      obtain ⟨x, hx, rfl⟩ := List.mem_map.mp hy
      obtain ⟨h1, h2, -⟩ := hmem true x hx
      exact hs _ h1 _ h2
    · simpa using hne
  have hraw : ∃ raw, IsLoss u P raw ∧ rawLoss (u.map fun x => some x.threshold) (u.map (·.size))
      (u.map fun x => x.power.getD 0) (some P) = some raw := by
    unfold IsLoss rawLoss
    by_cases hc : (∃ x ∈ u, ¬ x.On) ∧ P / V < 1 - 3 / 4 * m
    · set f := min 1 (max (onlineShare u) (P / V)) with hf
      have hfpos : 0 < f := lt_min one_pos (lt_of_lt_of_le hshare (le_max_left _ _))
      refine ⟨P * (1 - f) / f, ⟨V, m, ⟨hne, rfl⟩, hm, ?_⟩, ?_⟩
      · rw [if_pos hc]
        exact ⟨f, rfl, rfl⟩
      · rw [if_pos (hdt.mpr hc)]
        simp only [hrep, hvirt, hq, hlow, Option.map_some, Option.bind_some]
        have hclip : clipQ (onlineShare u) 1 (P / V) = f := rfl
        rw [hclip]
        simp only [cellDiv, Option.bind_some, if_neg hfpos.ne', cellOp, Option.some.injEq]
        ring
    · refine ⟨0, ⟨V, m, ⟨hne, rfl⟩, hm, ?_⟩, ?_⟩
      · rw [if_neg hc]
      · rw [if_neg (fun h => hc (hdt.mp h))]
  obtain ⟨raw, h1, h2⟩ := hraw
  refine ⟨raw, h1, ?_⟩
  unfold lossRow
  simp only [Option.map_some, max_eq_right hP, hfill, h2]
  cases limit with
  | none => rfl
  | some L =>
    have hiff : cellCmp (fun a b : ℚ => decide (b < a)) (cellOp (· + ·) (some raw) (some P)) (some L) = true ↔ L < raw + P := by
      simp [cellOp, cellCmp]
    by_cases h : L < raw + P
    · rw [if_pos (hiff.mpr h)]
      simp only [if_pos h]
      rfl
    · rw [if_neg (fun c => h (hiff.mp c))]
      simp only [if_neg h]
      rfl

/-- **C99 (no estimate).** Without a reporting subsystem of known size there is no estimate and the
reported loss is zero, as it is without a meter reading. -/
theorem C99_no_estimate {u : List Sub} {ps : Cell}
    (h : (∀ x ∈ u, x.On → x.size = none) ∨ ps = none) :
    lossRow (u.map fun x => some x.threshold) (u.map (·.size)) none ps (u.map (·.power)) = 0 := by
  have hfill : fillRow (u.map (·.power)) = u.map fun x => x.power.getD 0 := by
    unfold fillRow; rw [List.map_map]; rfl
  have hdiv : cellDiv (ps.map (max 0)) (virtualFull (u.map (·.size))
      (reportingRow (u.map fun x => some x.threshold) (u.map fun x => x.power.getD 0))) = none := by
    rcases h with h | rfl
    · have : virtualFull (u.map (·.size))
          (reportingRow (u.map fun x => some x.threshold) (u.map fun x => x.power.getD 0)) = none := by
        unfold virtualFull reportingRow onlineRow
        rw [zipWith_maps, zipWith_maps, zipWith_maps]
        have e : (u.map fun x => cellDiv (if cellCmp (fun a b : ℚ => decide (a < b)) (some x.threshold) (some (x.power.getD 0)) = true
            then some (x.power.getD 0) else none) x.size) = u.map fun _ => none := by
          apply List.map_congr_left
          intro x hx
          by_cases ho : x.On
          · rw [h x hx ho]
            split_ifs <;> rfl
          · have : ¬ cellCmp (fun a b : ℚ => decide (a < b)) (some x.threshold) (some (x.power.getD 0)) = true := by
              simpa [cellCmp, Spec.Sub.On] using ho
            rw [if_neg this]; rfl
        rw [e]
        have : valids (u.map fun _ => (none : Cell)) = [] := by
          unfold valids
          simp
        rw [this]
        rfl
      rw [this]
      cases ps.map (max 0) <;> rfl
    · rfl
  unfold lossRow
  simp only [hfill]
  have hdt : isDowntime (u.map fun x => some x.threshold) (u.map (·.size)) (u.map fun x => x.power.getD 0) (ps.map (max 0)) = false := by
    unfold isDowntime
    simp only [hdiv]
    rfl
  have hr : rawLoss (u.map fun x => some x.threshold) (u.map (·.size)) (u.map fun x => x.power.getD 0) (ps.map (max 0)) = some 0 := by
    unfold rawLoss
    rw [hdt]
    rfl
  rw [hr]
  have hnolim : ∀ l : Cell, cellCmp (fun a b : ℚ => decide (b < a)) l none = false := fun l => by cases l <;> rfl
  rw [hnolim]
  rfl

/-- two reporting subsystems, one off, and one off whose size is unknown -/
def exSubs : List Sub := [⟨1, some (1 / 2), some 50⟩, ⟨1, some 1, none⟩, ⟨1, some (3 / 2), some 150⟩, ⟨1, none, some (1 / 2)⟩]

example : (∀ x ∈ exSubs, 0 ≤ x.threshold) ∧ (∀ x ∈ exSubs, ∀ s : ℚ, x.size = some s → 0 < s) ∧
    (∃ x ∈ exSubs, x.On ∧ x.size ≠ none) ∧ sized false exSubs = [(⟨1, some 1, none⟩, 1)] := by
  refine ⟨?_, ?_, ⟨⟨1, some (1 / 2), some 50⟩, by simp [exSubs], ?_, by simp⟩, ?_⟩
  · intro x hx
    simp only [exSubs, List.mem_cons, List.not_mem_nil, or_false] at hx
    rcases hx with rfl | rfl | rfl | rfl <;> norm_num
  · intro x hx s
    simp only [exSubs, List.mem_cons, List.not_mem_nil, or_false] at hx
    rcases hx with rfl | rfl | rfl | rfl <;> first | (intro h; cases h; norm_num) | (intro h; cases h)
  · norm_num [Spec.Sub.On]
  · norm_num [exSubs, Spec.sized, Spec.Sub.sized, Spec.Sub.On, List.filterMap_cons]

/-- if the only subsystem off has no known size, there is a loss only below a quarter of full power -/
example : lossRow [some 1, some 1] [some 1, none] none (some 60) [some 100, none] = 0 ∧
    lossRow [some 1, some 1] [some 1, none] none (some 40) [some 100, none] = 0 ∧
    0 < lossRow [some 1, some 1, some 1] [some 1, some 1, none] none (some 60) [some 100, none, none] := by
  decide +kernel

end Verif
