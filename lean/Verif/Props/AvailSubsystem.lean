import Verif.Model.Availability
import Verif.Lemmas.Stats
import Verif.Lemmas.Quantile
import Verif.Lemmas.SrrLevels
import Mathlib.Data.List.GetD
import Mathlib.Tactic.FieldSimp

/-! # Property C47 (subsystem losses of the availability analysis) -/

namespace Verif
open Avail

theorem mem_zipWith {α β γ : Type} {f : α → β → γ} {l : List α} {r : List β} {x : γ}
    (h : x ∈ List.zipWith f l r) : ∃ a ∈ l, ∃ b ∈ r, x = f a b := by
  induction l generalizing r with
  | nil => simp at h
  | cons a l ih =>
    cases r with
    | nil => simp at h
    | cons b r =>
      rw [List.zipWith_cons_cons, List.mem_cons] at h
      rcases h with rfl | h
      · exact ⟨a, by simp, b, by simp, rfl⟩
      · obtain ⟨a', ha, b', hb, e⟩ := ih h
        exact ⟨a', by simp [ha], b', by simp [hb], e⟩

theorem mem_valids {l : List Cell} {x : ℚ} : x ∈ valids l ↔ some x ∈ l := by
  unfold valids; simp

/-- non-negative sizes, a missing one allowed -/
def NonnegCells (l : List Cell) : Prop := ∀ x : ℚ, some x ∈ l → 0 ≤ x

theorem cellDiv_some {a b : Cell} {x : ℚ} : cellDiv a b = some x ↔
    ∃ p q, a = some p ∧ b = some q ∧ q ≠ 0 ∧ x = p / q := by
  cases a with
  | none => simp [cellDiv]
  | some p =>
    cases b with
    | none => simp [cellDiv]
    | some q =>
      by_cases h : q = 0
      · simp [cellDiv, h]
      · simp [cellDiv, h, eq_comm]

theorem fractions_nonneg {sizes : List Cell} (h : NonnegCells sizes) : NonnegCells (fractions sizes) := by
  intro x hx
  unfold fractions at hx
  obtain ⟨s, hs, e⟩ := List.mem_map.mp hx
  obtain ⟨p, q, rfl, e2, -, rfl⟩ := cellDiv_some.mp e
  simp only [Option.some.injEq] at e2
  subst e2
  exact div_nonneg (h p hs) (List.sum_nonneg fun y hy => h y (mem_valids.mp hy))

theorem lowestPossible_nonneg {th sizes : List Cell} {p : List ℚ} (h : NonnegCells sizes) :
    0 ≤ lowestPossible th sizes p := by
  unfold lowestPossible
  refine List.sum_nonneg fun y hy => ?_
  obtain ⟨b, -, f, hf, e⟩ := mem_zipWith (mem_valids.mp hy)
  cases f with
  | none => simp at e
  | some f =>
    simp only [Option.map_some, Option.some.injEq] at e
    rw [e]
    split_ifs
    · exact fractions_nonneg h f hf
    · exact le_refl _

/-- the loss before the limit is non-negative -/
theorem rawLoss_nonneg {th sizes : List Cell} {p : List ℚ} {ps : Cell} (h : NonnegCells sizes)
    (hps : ∀ x, ps = some x → 0 ≤ x) {v : ℚ} (hv : rawLoss th sizes p ps = some v) : 0 ≤ v := by
  unfold rawLoss at hv
  split_ifs at hv
  · simp only at hv
    cases hq : cellDiv ps (virtualFull sizes (reportingRow th p)) with
    | none => rw [hq] at hv; simp [cellOp] at hv
    | some q =>
      rw [hq] at hv
      simp only [Option.map_some, Option.bind_some] at hv
      cases hf : cellDiv (some (1 - clipQ (lowestPossible th sizes p) 1 q))
          (some (clipQ (lowestPossible th sizes p) 1 q)) with
      | none => rw [hf] at hv; simp [cellOp] at hv
      | some r =>
        rw [hf] at hv
        obtain ⟨a, b, e1, e2, -, e⟩ := cellDiv_some.mp hf
        simp only [Option.some.injEq] at e1 e2
        cases hp : ps with
        | none => rw [hp] at hv; simp [cellOp] at hv
        | some x =>
          rw [hp] at hv
          simp only [cellOp, Option.some.injEq] at hv
          rw [← hv, e, ← e1, ← e2]
          have hlo := lowestPossible_nonneg (th := th) (p := p) h
          refine mul_nonneg (div_nonneg ?_ ?_) (hps x hp)
          · unfold clipQ; linarith [min_le_left (1 : ℚ) (max (lowestPossible th sizes p) q)]
          · unfold clipQ; exact le_min zero_le_one (hlo.trans (le_max_left _ _))
  · rw [Option.some.injEq] at hv; rw [← hv]

theorem lossRow_nonneg {th sizes : List Cell} {limit ps : Cell} {row : List Cell} (h : NonnegCells sizes) :
    0 ≤ lossRow th sizes limit ps row := by
  unfold lossRow
  simp only
  split_ifs
  · cases limit with
    | none => simp [cellOp]
    | some l =>
      cases ps with
      | none => simp [cellOp]
      | some x => simp [cellOp]
  · cases hv : rawLoss th sizes (fillRow row) (ps.map (max 0)) with
    | none => simp
    | some v =>
      simp only [Option.getD_some]
      refine rawLoss_nonneg h ?_ hv
      intro x hx
      cases ps with
      | none => simp at hx
      | some y => simp only [Option.map_some, Option.some.injEq] at hx; rw [← hx]; exact le_max_left _ _

/-- sizes estimated from the data are non-negative if the thresholds are -/
theorem estimateSizes_nonneg {n : Nat} {th : List Cell} {rows : List (List Cell)} (h : NonnegCells th) :
    NonnegCells (estimateSizes n th rows) := by
  intro x hx
  unfold estimateSizes at hx
  obtain ⟨j, -, e⟩ := List.mem_map.mp hx
  refine quantile_ge e (by norm_num) (by norm_num) ?_
  intro v hv
  obtain ⟨r, -, e⟩ := List.mem_map.mp (mem_valids.mp hv)
  have hrep : ∀ z, some z ∈ reportingRow th (fillRow r) → 0 ≤ z := by
    intro z hz
    unfold reportingRow at hz
    -- the online flag and the value come from the same column
    have : ∀ (t : List Cell) (p : List ℚ), NonnegCells t →
        some z ∈ List.zipWith (fun (b : Bool) x => if b then some x else none) (onlineRow t p) p → 0 ≤ z := by
      intro t
      induction t with
      | nil => intro p _ hz; simp [onlineRow] at hz
      | cons a t ih =>
        intro p ht hz
        cases p with
        | nil => simp at hz
        | cons y p =>
          unfold onlineRow at hz
          rw [List.zipWith_cons_cons, List.zipWith_cons_cons, List.mem_cons] at hz
          rcases hz with hz | hz
          · split_ifs at hz with hc
            rw [Option.some.injEq] at hz
            cases a with
            | none => simp [cellCmp] at hc
            | some a =>
              simp only [cellCmp, decide_eq_true_eq] at hc
              have := ht a (by simp)
              linarith
          · exact ih p (fun x hx => ht x (by simp [hx])) hz
    exact this th _ h hz
  have hnorm : ∀ z, some z ∈ normalizedRow (reportingRow th (fillRow r)) → 0 ≤ z := by
    intro z hz
    unfold normalizedRow at hz
    obtain ⟨c, hc, e⟩ := List.mem_map.mp hz
    obtain ⟨p, q, rfl, e2, -, rfl⟩ := cellDiv_some.mp e
    refine div_nonneg (hrep p hc) ?_
    unfold mean at e2
    split at e2
    · cases e2
    · rw [Option.some.injEq] at e2
      rw [← e2]
      exact div_nonneg (List.sum_nonneg fun y hy => hrep y (mem_valids.mp hy)) (by positivity)
  by_cases hj : j < (normalizedRow (reportingRow th (fillRow r))).length
  · rw [List.getD_eq_getElem _ _ hj] at e
    exact hnorm v (e ▸ List.getElem_mem hj)
  · rw [List.getD_eq_default _ _ (by omega)] at e
    cases e

/-- the thresholds computed from the data are non-negative when the subsystem powers are -/
theorem defaultThresholds_nonneg {i : Input} (h : ∀ r ∈ i.subs, ∀ x : ℚ, some x ∈ r → 0 ≤ x) :
    NonnegCells (defaultThresholds i.ncols i.subs) := by
  intro x hx
  unfold defaultThresholds at hx
  obtain ⟨j, -, e⟩ := List.mem_map.mp hx
  cases hq : quantile (i.subs.map fun r => (fillRow r).getD j 0) (99 / 100) with
  | none => rw [hq] at e; simp at e
  | some q =>
    rw [hq] at e
    simp only [Option.map_some, Option.some.injEq] at e
    have : 0 ≤ q := by
      refine quantile_ge hq (by norm_num) (by norm_num) ?_
      intro v hv
      obtain ⟨r, hr, rfl⟩ := List.mem_map.mp hv
      by_cases hj : j < (fillRow r).length
      · rw [List.getD_eq_getElem _ _ hj]
        have hm := List.getElem_mem hj
        unfold fillRow at hm
        obtain ⟨c, hc, e⟩ := List.mem_map.mp hm
        rw [show (fillRow r)[j] = c.getD 0 from e.symm]
        cases c with
        | none => exact le_refl _
        | some c => exact h r hr c hc
      · rw [List.getD_eq_default _ _ (by omega)]
    rw [← e]
    positivity

theorem sizesOf_nonneg {a : Args} {i : Input} (hth : NonnegCells (thresholdsOf a i))
    (hs : ∀ l, a.sizes = some l → NonnegCells l) : NonnegCells (sizesOf a i) := by
  unfold sizesOf
  cases h : a.sizes with
  | none => exact estimateSizes_nonneg hth
  | some l => exact hs l h

namespace Spec
/-- no threshold and no size is negative: those given, or without thresholds the powers they are taken from -/
structure Sensible (a : Args) (i : Input) : Prop where
  thresholds : ∀ l, a.thresholds = some l → NonnegCells l
  powers : a.thresholds = none → ∀ r ∈ i.subs, NonnegCells r
  sizes : ∀ l, a.sizes = some l → NonnegCells l

/-- the threshold of a subsystem: the one given, or a thousandth of the 99 % quantile of its powers, missing ones counting as zero -/
def Threshold (a : Args) (i : Input) (j : Nat) (t : ℚ) : Prop :=
  (∃ l, a.thresholds = some l ∧ l[j]? = some (some t)) ∨
  (a.thresholds = none ∧ j < i.ncols ∧
    IsQuantile (i.subs.map fun r => ((r[j]?).bind id).getD 0) (99 / 100) (1000 * t))
end Spec
open Spec

theorem thresholdsOf_nonneg {a : Args} {i : Input} (h : Sensible a i) : NonnegCells (thresholdsOf a i) := by
  unfold thresholdsOf
  cases ht : a.thresholds with
  | none => exact defaultThresholds_nonneg (h.powers ht)
  | some l => exact h.thresholds l ht

/-- **C47 (reporting).** A subsystem is taken to report at a timestamp exactly if its power exceeds its threshold (a missing power
counts as zero). -/
theorem C47_reporting {a : Args} {i : Input} {j k : Nat} {t : ℚ} (ht : Threshold a i j t) {row : List Cell}
    (hr : i.subs[k]? = some row) {c : Cell} (hc : row[j]? = some c) :
    ((lossSubsystem a i).mask[k]?.bind fun l => l[j]?) = some (decide (t < c.getD 0)) := by
  have hth : (thresholdsOf a i)[j]? = some (some t) := by
    unfold thresholdsOf
    rcases ht with ⟨l, h1, h2⟩ | ⟨h1, h2, h3⟩
    · rw [h1]; exact h2
    · rw [h1]
      unfold defaultThresholds
      rw [Option.getD_none, List.getElem?_map, List.getElem?_range h2]
      have e : (i.subs.map fun r => (fillRow r).getD j 0) = i.subs.map fun r => ((r[j]?).bind id).getD 0 := by
        apply List.map_congr_left
        intro r _
        unfold fillRow
        rw [List.getD_eq_getElem?_getD, List.getElem?_map]
        cases r[j]? with
        | none => rfl
        | some x => rfl
      rw [Option.map_some, e, (isQuantile_iff (by norm_num) (by norm_num)).mp h3]
      simp only [Option.map_some]
      congr 2
      ring
  have hm : (lossSubsystem a i).mask = i.subs.map fun r => onlineRow (thresholdsOf a i) (fillRow r) := rfl
  rw [hm, List.getElem?_map, hr, Option.map_some, Option.bind_some]
  unfold onlineRow fillRow
  rw [List.getElem?_zipWith, hth, List.getElem?_map, hc]
  rfl

/-- **C47 (non-negative).** Every reported subsystem loss is non-negative, for given or estimated sizes
and thresholds, with or without a power limit. -/
theorem C47_nonneg {a : Args} {i : Input} (h : Sensible a i) : ∀ x ∈ (lossSubsystem a i).loss, 0 ≤ x := by
  have hth := thresholdsOf_nonneg h
  have hs := h.sizes
  intro x hx
  unfold lossSubsystem at hx
  simp only [List.mem_map] at hx
  obtain ⟨k, -, rfl⟩ := hx
  exact lossRow_nonneg (sizesOf_nonneg hth hs)

/-- without downtime the row has no loss, also with a limit -/
theorem lossRow_zero {th sizes : List Cell} {limit ps : Cell} {row : List Cell}
    (h : isDowntime th sizes (fillRow row) (ps.map (max 0)) = false) : lossRow th sizes limit ps row = 0 := by
  unfold lossRow rawLoss
  simp only [h, Bool.false_eq_true, if_false]
  split_ifs with hc
  · cases limit with
    | none => simp [cellOp]
    | some l =>
      cases ps with
      | none => simp [cellOp]
      | some x =>
        simp only [cellOp, Option.map_some, cellCmp, decide_eq_true_eq, zero_add] at hc
        simp only [cellOp, Option.map_some, Option.getD_some]
        exact max_eq_left (by linarith)
  · rfl

/-- **C47 (all online).** At a timestamp where every subsystem is above its threshold, the loss is zero. -/
theorem C47_all_online {a : Args} {i : Input} {k : Nat} (hk : k < i.index.length)
    (hon : ∀ b ∈ (lossSubsystem a i).mask.getD k [], b = true) (hsub : k < i.subs.length) :
    (lossSubsystem a i).loss[k]? = some 0 := by
  have hrow : (lossSubsystem a i).mask.getD k [] = onlineRow (thresholdsOf a i) (fillRow (i.subs.getD k [])) := by
    have hm : (lossSubsystem a i).mask = i.subs.map fun r => onlineRow (thresholdsOf a i) (fillRow r) := rfl
    rw [hm, List.getD_eq_getElem _ _ (by simpa using hsub), List.getElem_map, List.getD_eq_getElem _ _ hsub]
  rw [hrow] at hon
  unfold lossSubsystem
  simp only [List.getElem?_map, List.getElem?_range hk, Option.map_some, Option.some.injEq]
  apply lossRow_zero
  unfold isDowntime
  have : (onlineRow (thresholdsOf a i) (fillRow (i.subs.getD k []))).all id = true := by
    rw [List.all_eq_true]; exact hon
  simp only [this, Bool.not_true, Bool.and_false]

/-- **C47 (all offline).** Where no subsystem reports, nothing is attributed to subsystem outages (this is
left to the system outages). -/
theorem C47_all_offline {a : Args} {i : Input} {k : Nat} (hk : k < i.index.length)
    (hoff : ∀ b ∈ (lossSubsystem a i).mask.getD k [], b = false) (hsub : k < i.subs.length) :
    (lossSubsystem a i).loss[k]? = some 0 := by
  have hrow : (lossSubsystem a i).mask.getD k [] = onlineRow (thresholdsOf a i) (fillRow (i.subs.getD k [])) := by
    have hm : (lossSubsystem a i).mask = i.subs.map fun r => onlineRow (thresholdsOf a i) (fillRow r) := rfl
    rw [hm, List.getD_eq_getElem _ _ (by simpa using hsub), List.getElem_map, List.getD_eq_getElem _ _ hsub]
  rw [hrow] at hoff
  unfold lossSubsystem
  simp only [List.getElem?_map, List.getElem?_range hk, Option.map_some, Option.some.injEq]
  apply lossRow_zero
  have hrep : ∀ c ∈ reportingRow (thresholdsOf a i) (fillRow (i.subs.getD k [])), c = none := by
    intro c hc
    unfold reportingRow at hc
    obtain ⟨b, hb, x, -, rfl⟩ := mem_zipWith hc
    rw [hoff b hb]
    rfl
  have hv : virtualFull (sizesOf a i) (reportingRow (thresholdsOf a i) (fillRow (i.subs.getD k []))) = none := by
    unfold virtualFull
    have : valids (List.zipWith cellDiv (reportingRow (thresholdsOf a i) (fillRow (i.subs.getD k []))) (sizesOf a i)) = [] := by
      rw [List.eq_nil_iff_forall_not_mem]
      intro x hx
      obtain ⟨c, hc, s, -, e⟩ := mem_zipWith (mem_valids.mp hx)
      rw [hrep c hc] at e
      simp [cellDiv] at e
    rw [this]
    rfl
  unfold isDowntime
  simp only [hv]
  have hn : ∀ c : Cell, cellDiv c none = none := fun c => by cases c <;> rfl
  rw [hn]
  rfl

/-- **C47 (limit).** With a system power limit, power plus loss never exceeds the limit, unless the power
alone does, and then the loss is zero. -/
theorem C47_limit {a : Args} {i : Input} (h : Sensible a i) {k : Nat} (hk : k < i.index.length) {l p : ℚ}
    (hl : a.limits.getD k none = some l) (hp : i.system.getD k none = some p) :
    ∃ x, (lossSubsystem a i).loss[k]? = some x ∧ max 0 p + x ≤ max l (max 0 p) ∧ (l < max 0 p → x = 0) := by
  have hth := thresholdsOf_nonneg h
  have hs := h.sizes
  unfold lossSubsystem
  simp only [List.getElem?_map, List.getElem?_range hk, Option.map_some, Option.some.injEq, exists_eq_left']
  rw [hl, hp]
  have hsz := sizesOf_nonneg hth hs
  generalize thresholdsOf a i = th
  generalize sizesOf a i = sizes at hsz
  generalize i.subs.getD k [] = row
  unfold lossRow
  simp only [Option.map_some]
  cases hr : rawLoss th sizes (fillRow row) (some (max 0 p)) with
  | none =>
    have e : cellCmp (fun a b : ℚ => decide (b < a)) (cellOp (· + ·) none (some (max 0 p))) (some l) = false := rfl
    rw [e]
    simp
  | some v =>
    simp only [cellOp, cellCmp, decide_eq_true_eq]
    split_ifs with hc
    · simp only [Option.map_some, Option.getD_some]
      constructor
      · rcases le_total 0 (l - max 0 p) with h | h
        · rw [max_eq_right h]; linarith [le_max_left l (max 0 p)]
        · rw [max_eq_left h]; linarith [le_max_right l (max 0 p)]
      · intro h; exact max_eq_left (by linarith)
    · simp only [Option.getD_some]
      push Not at hc
      refine ⟨by linarith [le_max_left l (max 0 p)], fun h => ?_⟩
      have := rawLoss_nonneg hsz (fun x hx => by rw [Option.some.injEq] at hx; rw [← hx]; exact le_max_left _ _) hr
      linarith

/-- **C47 (limit, exactly).** With a system power limit the loss is the loss without a limit, cut to what is left
between the power and the limit. So a lower limit never raises a loss. -/
theorem C47_limit_exact {a : Args} {i : Input} (h : Sensible a i) {k : Nat} (hk : k < i.index.length) {l p : ℚ}
    (hl : a.limits.getD k none = some l) (hp : i.system.getD k none = some p) :
    ∃ y, (lossSubsystem { a with limits := [] } i).loss[k]? = some y ∧
      (lossSubsystem a i).loss[k]? = some (min y (max 0 (l - max 0 p))) := by
  have hsz := sizesOf_nonneg (thresholdsOf_nonneg h) h.sizes
  have e1 : thresholdsOf { a with limits := [] } i = thresholdsOf a i := rfl
  have e2 : sizesOf { a with limits := [] } i = sizesOf a i := rfl
  unfold lossSubsystem
  simp only [List.getElem?_map, List.getElem?_range hk, Option.map_some, Option.some.injEq, exists_eq_left', e1, e2]
  rw [hl, hp]
  generalize thresholdsOf a i = th
  generalize sizesOf a i = sizes at hsz
  generalize i.subs.getD k [] = row
  unfold lossRow
  simp only [Option.map_some, List.getD_nil]
  obtain ⟨x, hr⟩ : ∃ x, rawLoss th sizes (fillRow row) (some (max 0 p)) = x := ⟨_, rfl⟩
  simp only [hr]
  cases x with
  | none => simp [cellOp, cellCmp]
  | some v =>
    have hv := rawLoss_nonneg hsz (fun x hx => by rw [Option.some.injEq] at hx; rw [← hx]; exact le_max_left _ _) hr
    simp only [cellOp, cellCmp, decide_eq_true_eq, Bool.false_eq_true, if_false, Option.getD_some]
    split_ifs with hc
    · simp only [Option.map_some, Option.getD_some]
      rw [min_eq_right (max_le hv (by linarith))]
    · simp only [Option.getD_some]
      push Not at hc
      rw [min_eq_left (le_max_of_le_right (by linarith))]

/-! ## exactness -/

namespace Spec
/-- one subsystem at one timestamp: its relative size, its threshold, the recorded power and whether it
is in operation -/
structure Inverter where
  size : ℚ
  threshold : ℚ
  power : Cell
  on : Bool

/-- all operating subsystems produce the same power `c` per relative size, above their thresholds; the
others record nothing or at most their threshold -/
def Proportional (c : ℚ) (u : List Inverter) : Prop :=
  ∀ x ∈ u, 0 < x.size ∧ 0 ≤ x.threshold ∧
    (x.on = true → x.power = some (c * x.size) ∧ x.threshold < c * x.size) ∧
    (x.on = false → x.power.getD 0 ≤ x.threshold)
end Spec

theorem zipWith_maps {α β γ δ : Type} (h : β → γ → δ) (f : α → β) (g : α → γ) (l : List α) :
    List.zipWith h (l.map f) (l.map g) = l.map fun x => h (f x) (g x) := by
  induction l with
  | nil => rfl
  | cons a l ih => simp [ih]

theorem valids_map_some {α : Type} (f : α → ℚ) (l : List α) : valids (l.map fun x => some (f x)) = l.map f := by
  induction l with
  | nil => rfl
  | cons a l ih => unfold valids at ih ⊢; simp [ih]

theorem valids_map_ite {α : Type} (p : α → Bool) (f : α → ℚ) (l : List α) :
    valids (l.map fun x => if p x then some (f x) else none) = (l.filter p).map f := by
  induction l with
  | nil => rfl
  | cons a l ih =>
    rw [List.map_cons]
    by_cases h : p a = true
    · rw [if_pos h, List.filter_cons_of_pos h, List.map_cons, ← ih]; rfl
    · rw [if_neg h, List.filter_cons_of_neg h, ← ih]; rfl

theorem sum_filter_add (u : List Inverter) : ((u.filter (·.on)).map (·.size)).sum +
    ((u.filter (fun x => !x.on)).map (·.size)).sum = (u.map (·.size)).sum := by
  induction u with
  | nil => simp
  | cons x u ih =>
    cases h : x.on
    · rw [List.filter_cons_of_neg (by simp [h]), List.filter_cons_of_pos (by simp [h])]
      simp only [List.map_cons, List.sum_cons]
      linarith
    · rw [List.filter_cons_of_pos (by simp [h]), List.filter_cons_of_neg (by simp [h])]
      simp only [List.map_cons, List.sum_cons]
      linarith

theorem sum_map_mul_const {α : Type} (l : List α) (f : α → ℚ) (c : ℚ) :
    (l.map fun x => f x * c).sum = (l.map f).sum * c := by
  induction l with
  | nil => simp
  | cons a l ih => simp only [List.map_cons, List.sum_cons, ih]; ring

theorem foldl_min_le_cell {l : List ℚ} {a x : ℚ} (h : x = a ∨ x ∈ l) : l.foldl min a ≤ x := by
  induction l generalizing a x with
  | nil =>
    rcases h with rfl | h
    · exact le_refl _
    · simp at h
  | cons b l ih =>
    rw [List.foldl_cons]
    rcases h with rfl | h
    · exact (ih (Or.inl rfl)).trans (min_le_left _ _)
    · rcases List.mem_cons.mp h with rfl | h
      · exact (ih (Or.inl rfl)).trans (min_le_right _ _)
      · exact ih (Or.inr h)

/-- the loss of a row with proportional subsystems -/
theorem lossRow_exact {c : ℚ} (hc : 0 < c) {u : List Inverter} (hu : Proportional c u)
    (hsum : (u.map (·.size)).sum = u.length) (hon : ∃ x ∈ u, x.on = true) :
    lossRow (u.map fun x => some x.threshold) (u.map fun x => some x.size) none
      (some ((u.filter (·.on)).map fun x => c * x.size).sum) (u.map (·.power)) =
      ((u.filter (fun x => !x.on)).map fun x => c * x.size).sum := by
  have hlen : (0 : ℚ) < u.length := by
    obtain ⟨x, hx, -⟩ := hon
    exact_mod_cast List.length_pos_of_mem hx
  set A := ((u.filter (·.on)).map (·.size)).sum with hA
  set B := ((u.filter (fun x => !x.on)).map (·.size)).sum with hB
  have hAB : A + B = u.length := by rw [hA, hB, sum_filter_add, hsum]
  have hApos : 0 < A := by
    obtain ⟨x, hx, hxo⟩ := hon
    refine lt_of_lt_of_le (hu x hx).1 ?_
    rw [hA]
    exact List.single_le_sum (fun y hy => by
      obtain ⟨z, hz, rfl⟩ := List.mem_map.mp hy
      exact (hu z (List.mem_filter.mp hz).1).1.le) _
      (List.mem_map_of_mem (f := fun x : Inverter => x.size) (List.mem_filter.mpr ⟨hx, hxo⟩))
  have hmulA : ((u.filter (·.on)).map fun x => c * x.size).sum = c * A := by
    rw [hA, mul_comm, ← sum_map_mul_const]
    congr 1
    exact List.map_congr_left fun x _ => mul_comm _ _
  have hmulB : ((u.filter (fun x => !x.on)).map fun x => c * x.size).sum = c * B := by
    rw [hB, mul_comm, ← sum_map_mul_const]
    congr 1
    exact List.map_congr_left fun x _ => mul_comm _ _
  rw [hmulA, hmulB]
  -- the rows
  have hfill : fillRow (u.map (·.power)) = u.map fun x => x.power.getD 0 := by
    unfold fillRow; rw [List.map_map]; rfl
  have hon' : onlineRow (u.map fun x => some x.threshold) (u.map fun x => x.power.getD 0) = u.map (·.on) := by
    unfold onlineRow
    rw [zipWith_maps]
    apply List.map_congr_left
    intro x hx
    obtain ⟨-, -, h1, h2⟩ := hu x hx
    cases h : x.on
    · have := h2 h
      simp only [cellCmp, decide_eq_false_iff_not]; linarith
    · obtain ⟨e, hlt⟩ := h1 h
      simp only [cellCmp, e, Option.getD_some, decide_eq_true_eq]; exact hlt
  have hrep : reportingRow (u.map fun x => some x.threshold) (u.map fun x => x.power.getD 0) =
      u.map fun x => if x.on then some (c * x.size) else none := by
    unfold reportingRow
    rw [hon', zipWith_maps]
    apply List.map_congr_left
    intro x hx
    cases h : x.on
    · rfl
    · obtain ⟨e, -⟩ := (hu x hx).2.2.1 h
      simp [e]
  have hvirt : virtualFull (u.map fun x => some x.size)
      (u.map fun x => if x.on then some (c * x.size) else none) = some (c * u.length) := by
    unfold virtualFull
    rw [zipWith_maps]
    have : (u.map fun x => cellDiv (if x.on then some (c * x.size) else none) (some x.size)) =
        u.map fun x => if x.on then some c else none := by
      apply List.map_congr_left
      intro x hx
      have h0 := (hu x hx).1.ne'
      cases h : x.on
      · rfl
      · simp [cellDiv, h0]
    rw [this, valids_map_ite (fun x : Inverter => x.on) (fun _ => c)]
    have hne : (u.filter (·.on)) ≠ [] := by
      obtain ⟨x, hx, hxo⟩ := hon
      exact List.ne_nil_of_mem (List.mem_filter.mpr ⟨hx, hxo⟩)
    have hmean : ∀ l : List Inverter, l ≠ [] → mean (l.map fun _ => c) = some c := by
      intro l hl
      cases l with
      | nil => exact absurd rfl hl
      | cons a l =>
        unfold mean
        simp only [List.map_cons, Option.some.injEq]
        rw [List.map_const', List.sum_cons, List.sum_replicate, List.length_cons, List.length_replicate]
        have : ((l.length + 1 : Nat) : ℚ) ≠ 0 := by positivity
        rw [div_eq_iff this]
        push_cast
        rw [nsmul_eq_mul]
        ring
    rw [hmean _ hne]
    simp
  have hfrac : fractions (u.map fun x => some x.size) = u.map fun x => some (x.size / (u.length : ℚ)) := by
    unfold fractions
    rw [valids_map_some, hsum, List.map_map]
    apply List.map_congr_left
    intro x _
    simp [cellDiv, hlen.ne']
  have hlow : lowestPossible (u.map fun x => some x.threshold) (u.map fun x => some x.size)
      (u.map fun x => x.power.getD 0) = A / u.length := by
    unfold lowestPossible
    rw [hon', hfrac, zipWith_maps]
    simp only [Option.map_some]
    rw [valids_map_some, hA]
    clear hon hsum hAB hApos hmulA hmulB hfill hon' hrep hvirt hfrac hA hB hlen
    generalize (u.length : ℚ) = n
    induction u with
    | nil => simp
    | cons x u ih =>
      have ih := ih fun y hy => hu y (by simp [hy])
      rw [List.map_cons, List.sum_cons, ih]
      cases h : x.on
      · rw [List.filter_cons_of_neg (by simp [h])]; simp
      · rw [List.filter_cons_of_pos (by simp [h])]
        simp only [List.map_cons, List.sum_cons, if_true]
        ring
  have hps : max 0 (c * A) = c * A := max_eq_right (mul_pos hc hApos).le
  have hq : cellDiv (some (c * A)) (some (c * (u.length : ℚ))) = some (A / u.length) := by
    have : c * (u.length : ℚ) ≠ 0 := (mul_pos hc hlen).ne'
    simp only [cellDiv, Option.bind_some, if_neg this, Option.some.injEq]
    field_simp
  have hBnn : ∀ y ∈ (u.filter (fun x => !x.on)).map (·.size), 0 ≤ y := by
    intro y hy
    obtain ⟨z, hz, rfl⟩ := List.mem_map.mp hy
    exact (hu z (List.mem_filter.mp hz).1).1.le
  unfold lossRow
  simp only [Option.map_some, hps, hfill]
  have hdt : isDowntime (u.map fun x => some x.threshold) (u.map fun x => some x.size)
      (u.map fun x => x.power.getD 0) (some (c * A)) = true ↔ ∃ x ∈ u, x.on = false := by
    unfold isDowntime
    simp only [hrep, hvirt, hq, hon', cellOp]
    constructor
    · intro h
      rw [Bool.and_eq_true, Bool.not_eq_true', List.all_eq_false] at h
      obtain ⟨b, hb, hn⟩ := h.2
      obtain ⟨x, hx, rfl⟩ := List.mem_map.mp hb
      exact ⟨x, hx, by simpa using hn⟩
    · rintro ⟨x, hx, hxo⟩
      rw [Bool.and_eq_true, Bool.not_eq_true', List.all_eq_false]
      refine ⟨?_, ⟨x.on, List.mem_map_of_mem hx, by simp [hxo]⟩⟩
      simp only [cellCmp, decide_eq_true_eq]
      -- the smallest fraction of an offline subsystem is at most the offline share
      have hsm : smallestDelta (u.map fun x => some x.threshold) (u.map fun x => some x.size)
          (u.map fun x => x.power.getD 0) ≤ x.size / u.length := by
        unfold smallestDelta
        rw [zipWith_maps, hfrac, zipWith_maps]
        have e : (u.map fun x => if cellCmp (fun a b : ℚ => decide (b ≤ a)) (some x.threshold) (some (x.power.getD 0)) = true
            then some (x.size / (u.length : ℚ)) else none) =
            u.map fun x => if !x.on then some (x.size / (u.length : ℚ)) else none := by
          apply List.map_congr_left
          intro y hy
          obtain ⟨-, -, h1, h2⟩ := hu y hy
          cases h : y.on
          · simp only [cellCmp, h2 h, decide_true, if_true, Bool.not_false]
          · obtain ⟨e, hlt⟩ := h1 h
            have : ¬ (c * y.size ≤ y.threshold) := by linarith
            simp [cellCmp, e, this]
        rw [e]
        unfold minCell
        rw [valids_map_ite (fun x : Inverter => !x.on) (fun x => x.size / (u.length : ℚ))]
        have hmem : x.size / (u.length : ℚ) ∈ (u.filter (fun x => !x.on)).map (fun x => x.size / (u.length : ℚ)) :=
          List.mem_map_of_mem (f := fun x : Inverter => x.size / (u.length : ℚ)) (List.mem_filter.mpr ⟨hx, by simp [hxo]⟩)
        revert hmem
        cases (u.filter (fun x => !x.on)).map (fun x => x.size / (u.length : ℚ)) with
        | nil => intro hmem; simp at hmem
        | cons a l =>
          intro hmem
          simp only [Option.getD_some]
          exact foldl_min_le_cell (List.mem_cons.mp hmem)
      have hle : x.size ≤ B := by
        rw [hB]
        exact List.single_le_sum hBnn _
          (List.mem_map_of_mem (f := fun x : Inverter => x.size) (List.mem_filter.mpr ⟨hx, by simp [hxo]⟩))
      have h1 : x.size / u.length ≤ B / u.length := div_le_div_of_nonneg_right hle hlen.le
      have h2 : 1 - A / u.length = B / u.length := by rw [eq_div_iff hlen.ne', sub_mul, div_mul_cancel₀ _ hlen.ne']; linarith
      have h3 : 0 < x.size / u.length := div_pos (hu x hx).1 hlen
      rw [h2]
      linarith
  have hnolim : ∀ l : Cell, cellCmp (fun a b : ℚ => decide (b < a)) l none = false := fun l => by cases l <;> rfl
  rw [hnolim]
  simp only [Bool.false_eq_true, if_false]
  unfold rawLoss
  by_cases hex : ∃ x ∈ u, x.on = false
  · rw [if_pos (hdt.mpr hex)]
    simp only [hrep, hvirt, hq, hlow, Option.map_some, Option.bind_some]
    have hle1 : A / u.length ≤ 1 := by
      rw [div_le_one hlen]
      have : 0 ≤ B := List.sum_nonneg hBnn
      linarith
    have hclip : clipQ (A / u.length) 1 (A / u.length) = A / u.length := by
      unfold clipQ; rw [max_self, min_eq_right hle1]
    have hpos : 0 < A / u.length := div_pos hApos hlen
    rw [hclip]
    simp only [cellDiv, Option.bind_some, if_neg hpos.ne', cellOp, Option.getD_some]
    rw [← hAB]
    have hABpos : A + B ≠ 0 := by rw [hAB]; exact hlen.ne'
    field_simp
    ring
  · rw [if_neg (fun h => hex (hdt.mp h))]
    have : B = 0 := by
      rw [hB]
      have : u.filter (fun x => !x.on) = [] := by
        rw [List.filter_eq_nil_iff]
        intro x hx h
        exact hex ⟨x, hx, by simpa using h⟩
      rw [this]; rfl
    simp [this]

/-- **C47 (exact).** If at a timestamp the operating subsystems produce in proportion to their relative sizes and the meter records
their sum, the reported loss is exactly what the subsystems out of operation would have produced. -/
theorem C47_exact {a : Args} {i : Input} {k : Nat} {c : ℚ} (hc : 0 < c) {u : List Inverter} (hu : Proportional c u)
    (hsum : (u.map (·.size)).sum = u.length) (hon : ∃ x ∈ u, x.on = true) (hk : k < i.index.length)
    (hth : a.thresholds = some (u.map fun x => some x.threshold)) (hsz : a.sizes = some (u.map fun x => some x.size))
    (hlim : a.limits.getD k none = none) (hrow : i.subs.getD k [] = u.map (·.power))
    (hsys : i.system.getD k none = some ((u.filter (·.on)).map fun x => c * x.size).sum) :
    (lossSubsystem a i).loss[k]? = some ((u.filter (fun x => !x.on)).map fun x => c * x.size).sum := by
  rw [← lossRow_exact hc hu hsum hon]
  unfold lossSubsystem
  simp only [List.getElem?_map, List.getElem?_range hk, Option.map_some, Option.some.injEq]
  rw [hlim, hsys, hrow]
  simp only [thresholdsOf, sizesOf, hth, hsz, Option.getD_some]

/-- three subsystems of relative size 1/2, 1, 3/2; the second one has tripped -/
def exUnits : List Inverter :=
  [⟨1 / 2, 1, some 50, true⟩, ⟨1, 1, none, false⟩, ⟨3 / 2, 1, some 150, true⟩]

example : Proportional 100 exUnits ∧ (exUnits.map (·.size)).sum = exUnits.length := by
  unfold Proportional exUnits
  constructor
  · intro x hx
    simp only [List.mem_cons, List.not_mem_nil, or_false] at hx
    rcases hx with rfl | rfl | rfl <;> norm_num
  · norm_num

example : lossRow [some 1, some 1, some 1] [some (1 / 2), some 1, some (3 / 2)] none (some 200)
    [some 50, none, some 150] = 100 := by decide +kernel
/-- the same with a plant limit of 240 -/
example : lossRow [some 1, some 1, some 1] [some (1 / 2), some 1, some (3 / 2)] (some 240) (some 200)
    [some 50, none, some 150] = 40 := by decide +kernel

/-- one timestamp of `exUnits`, with their thresholds and sizes -/
def exRow : Input := ⟨[0], none, [some 200], 3, [[some 50, none, some 150]], [some 0], [some 300]⟩
/-- see `exRow` -/
def exRowArgs : Args := ⟨some [some 1, some 1, some 1], some [some (1 / 2), some 1, some (3 / 2)], [], 1 / 100, 99 / 100, none⟩
example : lossSubsystem exRowArgs exRow = ⟨[[true, false, true]], [100]⟩ := by decide +kernel
example : lossSubsystem { exRowArgs with limits := [some 240] } exRow = ⟨[[true, false, true]], [40]⟩ := by decide +kernel
example : Sensible exRowArgs exRow := by
  refine ⟨fun l hl => ?_, fun h => (by cases h), fun l hl => ?_⟩
  · cases hl
    intro x hx
    simp only [List.mem_cons, Option.some.injEq, List.not_mem_nil, or_false] at hx
    rcases hx with rfl | rfl | rfl <;> norm_num
  · cases hl
    intro x hx
    simp only [List.mem_cons, Option.some.injEq, List.not_mem_nil, or_false] at hx
    rcases hx with rfl | rfl | rfl <;> norm_num
example : Threshold exRowArgs exRow 1 1 := .inl ⟨_, rfl, rfl⟩

end Verif
