import Verif.Model.Degradation
import Verif.Lemmas.EnergyMove
import Verif.Lemmas.Anniversary

/-! Moving a record through the degradation routines (helper lemmas for C149). -/

namespace Verif.Move

open Cods (marchDays)

theorem sortIndex_rows (d : Int) (s : Series) : sortIndex (rows d s) = rows d (sortIndex s) := by
  unfold sortIndex rows
  rw [List.map_insertionSort (r := fun a b : Int × Cell => a.1 ≤ b.1) (s := fun a b : Int × Cell => a.1 ≤ b.1)]
  intro a _ b _
  simp

theorem getLastD_start (d a : Int) (l : List Int) : (times d l).getLastD (a + d) = l.getLastD a + d := by
  unfold times
  induction l generalizing a with
  | nil => rfl
  | cons b l ih => simp only [List.map_cons, List.getLastD_cons]; exact ih b

/-- the anniversaries of a time move with it -/
def Commutes (d t : Int) : Prop := addYears 1 (t + d) = addYears 1 t + d ∧ addYears 2 (t + d) = addYears 2 t + d

variable {d : Int}

theorem underTwoYears_times {f : Option Int} {l : List Int} (hc : ∀ t ∈ l, Commutes d t) :
    underTwoYears f (times d l) = underTwoYears f l := by
  cases l with
  | nil => rfl
  | cons a l =>
    have hstep : yoyStep f (times d (a :: l)) = yoyStep f (a :: l) := by
      unfold yoyStep
      cases f with
      | some f => rfl
      | none => simp only [gaps_times, rows_snd]
    have h2 := (hc a List.mem_cons_self).2
    simp only [times_cons] at hstep ⊢
    unfold underTwoYears
    simp only [hstep, h2]
    have hl : ((a + d) :: times d l).getLastD (a + d) = (a :: l).getLastD a + d := getLastD_start d a (a :: l)
    rw [hl]
    cases yoyStep f (a :: l) with
    | none => rfl
    | some st =>
      simp only [Option.map_some, cellCmp]
      push_cast
      rw [decide_eq_decide]
      constructor <;> intro h <;> linarith

theorem yoyRenorm_rows (b : Bool) (s : Series) : yoyRenorm b (rows d s) = yoyRenorm b s := by
  unfold yoyRenorm
  cases b with
  | false => rfl
  | true =>
    cases s with
    | nil => rfl
    | cons r l =>
      simp only [if_true]
      rw [rows_cons]
      simp only
      rw [← rows_cons, filter_rows d (r :: l) (fun x => decide (r.1 ≤ x.1 ∧ x.1 ≤ r.1 + 364 * dayNs)), rows_snd]
      intro x
      simp only
      rw [decide_eq_decide]
      omega

theorem renormalize_rows (s : Series) (c : Cell) : renormalize (rows d s) c = rows d (renormalize s c) := by
  simp [renormalize, rows]

theorem asofYear_rows {s : Series} (hc : ∀ r ∈ s, Commutes d r.1) (t : Int) :
    asofYear (rows d s) (t + d) = (asofYear s t).map fun r => (r.1 + d, r.2) := by
  unfold asofYear
  have h1 : ((rows d s).insertionSort fun a b => addYears 1 a.1 ≤ addYears 1 b.1) =
      rows d (s.insertionSort fun a b => addYears 1 a.1 ≤ addYears 1 b.1) := by
    unfold rows
    rw [List.map_insertionSort (r := fun a b : Int × Cell => addYears 1 a.1 ≤ addYears 1 b.1)
      (s := fun a b : Int × Cell => addYears 1 a.1 ≤ addYears 1 b.1)]
    intro a ha b hb
    simp only
    rw [(hc a ha).1, (hc b hb).1]
    omega
  have hm : ∀ r ∈ s.insertionSort fun a b => addYears 1 a.1 ≤ addYears 1 b.1, addYears 1 (r.1 + d) = addYears 1 r.1 + d :=
    fun r hr => (hc r ((List.mem_insertionSort _).mp hr)).1
  rw [h1]
  generalize (s.insertionSort fun a b => addYears 1 a.1 ≤ addYears 1 b.1) = l at hm
  have h2 : ((rows d l).filter fun r => decide (addYears 1 r.1 ≤ t + d)) =
      rows d (l.filter fun r => decide (addYears 1 r.1 ≤ t)) := by
    unfold rows
    rw [List.filter_map]
    congr 1
    apply List.filter_congr
    intro r hr
    simp only [Function.comp_apply]
    rw [hm r hr, decide_eq_decide]
    omega
  rw [h2]
  unfold rows
  rw [List.getLast?_map]
  cases hg : (l.filter fun r => decide (addYears 1 r.1 ≤ t)).getLast? with
  | none => rfl
  | some r =>
    have hr : r ∈ l := (List.mem_filter.mp (List.mem_of_getLast? hg)).1
    simp only [Option.map_some]
    rw [hm r hr, show t + d - (addYears 1 r.1 + d) = t - addYears 1 r.1 by ring]
    split_ifs <;> rfl

/-- a row of the merged table, moved -/
def row (d : Int) (r : YoYRow) : YoYRow := ⟨r.dt + d, r.right.map (· + d), r.yoy⟩

theorem yoyTable_rows {s : Series} (hc : ∀ r ∈ s, Commutes d r.1) :
    yoyTable (rows d s) = (yoyTable s).map (row d) := by
  unfold yoyTable
  have : ∀ l : Series, ((rows d l).map fun r =>
      match asofYear (rows d s) r.1 with
      | none => ⟨r.1, none, none⟩
      | some (u, e) => ⟨r.1, some u, cellOp (fun a b => 100 * (a - b) / (((r.1 : ℚ) - u) / (365 * dayNs))) r.2 e⟩) =
      (l.map fun r =>
        match asofYear s r.1 with
        | none => (⟨r.1, none, none⟩ : YoYRow)
        | some (u, e) => ⟨r.1, some u, cellOp (fun a b => 100 * (a - b) / (((r.1 : ℚ) - u) / (365 * dayNs))) r.2 e⟩).map (row d) := by
    intro l
    unfold rows
    rw [List.map_map, List.map_map]
    apply List.map_congr_left
    intro r _
    simp only [Function.comp_apply]
    have := asofYear_rows hc r.1
    unfold rows at this
    rw [this]
    cases asofYear s r.1 with
    | none => rfl
    | some p =>
      obtain ⟨u, e⟩ := p
      simp only [Option.map_some, row]
      push_cast
      rw [add_sub_add_right_eq_sub]
  exact this s

theorem yoy_col (d : Int) (l : List YoYRow) : (l.map (row d)).map YoYRow.yoy = l.map YoYRow.yoy := by
  rw [List.map_map]; rfl

theorem usage_rows (l : List YoYRow) : usageOfPoints (l.map (row d)) = (usageOfPoints l).map fun p => (p.1 + d, p.2) := by
  unfold usageOfPoints
  rw [List.map_map, List.map_map]
  apply List.map_congr_left
  intro r _
  simp only [Function.comp_apply]
  have : ((l.map (row d)).find? fun x => decide (x.right = some (row d r).dt)) =
      (l.find? fun x => decide (x.right = some r.dt)).map (row d) := by
    rw [List.find?_map]
    congr 2
    funext x
    simp only [Function.comp_apply]
    rw [decide_eq_decide]
    simp only [row]
    cases x.right <;> simp
  rw [this]
  cases l.find? fun x => decide (x.right = some r.dt) <;> rfl

/-- the intermediate results, moved -/
def core (d : Int) (c : YoYCore) : YoYCore := { c with sorted := rows d c.sorted, table := c.table.map (row d) }

theorem yoyCore_rows {inferFreq : List Int → Option Int} (hf : ∀ l, inferFreq (times d l) = inferFreq l) (recenter : Bool)
    (block : Option ℚ) {s : Series} (hc : ∀ r ∈ s, Commutes d r.1) :
    yoyCore inferFreq recenter block (rows d s) = (yoyCore inferFreq recenter block s).map (core d) := by
  unfold yoyCore
  simp only [sortIndex_rows, rows_fst, hf]
  have hc' : ∀ r ∈ sortIndex s, Commutes d r.1 := fun r hr => hc r ((List.mem_insertionSort _).mp hr)
  generalize sortIndex s = x at hc'
  have hnil : times d (x.map Prod.fst) = [] ↔ x.map Prod.fst = [] := by simp [times]
  simp only [hnil]
  rw [underTwoYears_times (fun t ht => by obtain ⟨r, hr, rfl⟩ := List.mem_map.mp ht; exact hc' r hr), rows_length,
    yoyRenorm_rows, renormalize_rows, yoyTable_rows (s := renormalize x (yoyRenorm recenter x)) (fun r hr => by
      unfold renormalize at hr
      obtain ⟨q, hq, rfl⟩ := List.mem_map.mp hr
      exact hc' q hq), yoy_col]
  split_ifs
  · rfl
  · rfl
  · rfl
  · rfl
  · cases median (valids ((yoyTable (renormalize x (yoyRenorm recenter x))).map YoYRow.yoy)) <;> rfl

theorem core_times {inferFreq : List Int → Option Int} {recenter : Bool} {block : Option ℚ} {s : Series} {c : YoYCore}
    (h : yoyCore inferFreq recenter block s = .ok c) : ∀ t ∈ c.sorted.map Prod.fst, ∃ r ∈ s, r.1 = t := by
  unfold yoyCore at h
  simp only at h
  split_ifs at h
  cases hm : median (valids ((yoyTable (renormalize (sortIndex s) (yoyRenorm recenter (sortIndex s)))).map YoYRow.yoy)) with
  | none => rw [hm] at h; cases h
  | some rd =>
    rw [hm] at h
    cases h
    intro t ht
    unfold renormalize at ht
    simp only [List.map_map] at ht
    obtain ⟨q, hq, rfl⟩ := List.mem_map.mp ht
    exact ⟨q, (List.mem_insertionSort _).mp hq, rfl⟩

theorem zip_times {α : Type} (d : Int) (l : List Int) (v : List α) : (times d l).zip v = rows d (l.zip v) := by
  unfold times rows
  rw [List.zip_map_left]
  rfl

theorem mapM_congr' {α β ε : Type} {f g : α → Except ε β} {l : List α} (h : ∀ a ∈ l, f a = g a) :
    l.mapM f = l.mapM g := by
  induction l with
  | nil => rfl
  | cons a l ih =>
    rw [List.mapM_cons, List.mapM_cons, h a List.mem_cons_self, ih fun b hb => h b (List.mem_cons_of_mem _ hb)]

theorem yoyTrend_rows (rd : ℚ) (s : Series) : yoyTrend rd (rows d s) = yoyTrend rd s := by
  unfold yoyTrend
  simp only [rows_length, rows_fst]
  cases s with
  | nil => rfl
  | cons r l =>
    have h1 : (times d ((r :: l).map Prod.fst)).getLastD 0 = ((r :: l).map Prod.fst).getLastD 0 + d := by
      simp only [List.map_cons, times_cons, List.getLastD_cons]
      exact getLastD_start d r.1 (l.map Prod.fst)
    have h2 : (times d ((r :: l).map Prod.fst)).headD 0 = ((r :: l).map Prod.fst).headD 0 + d := rfl
    rw [h1, h2, add_sub_add_right_eq_sub]

/-! ### Calendar -/

theorem marchDays_four {Y j : Int} (h1 : 1900 ≤ Y) (h2 : Y ≤ 2099) (h3 : 1900 ≤ Y + 4 * j) (h4 : Y + 4 * j ≤ 2099) :
    marchDays (Y + 4 * j) = marchDays Y + 1461 * j := by
  unfold marchDays
  omega

theorem marchDays_400 (Y j : Int) : marchDays (Y + 400 * j) = marchDays Y + 146097 * j := by
  unfold marchDays
  omega

theorem monthFirst_years {k y D : Int} (h : marchDays ((k - 2) / 12 + y) = marchDays ((k - 2) / 12) + D) :
    monthFirst (k + 12 * y) = monthFirst k + D := by
  rw [monthFirst_eq, monthFirst_eq, show (k + 12 * y - 2) / 12 = (k - 2) / 12 + y by omega,
    show (k + 12 * y - 2) % 12 = (k - 2) % 12 by omega, h]
  ring

/-- `y` years later, `D` days later is the same date, and so for the anniversaries -/
theorem dayNumber_years {n y D c : Int} (hc : 0 ≤ c)
    (hP : ∀ Y, (civil n).year - 1 ≤ Y → Y ≤ (civil n).year + c → marchDays (Y + y) = marchDays Y + D)
    (hL : isLeap ((civil n).year + c + y) = isLeap ((civil n).year + c)) :
    dayNumber (addYearsDate c (civil (n + D))) = dayNumber (addYearsDate c (civil n)) + D := by
  obtain ⟨b1, b2, -⟩ := month_bounds n
  generalize monthNo n = k at b1 b2
  have hn := civil_of_month b1 b2
  rw [hn] at hP hL
  simp only at hP hL
  have m0 := monthFirst_years (hP ((k - 2) / 12) (by omega) (by omega))
  have m1 := monthFirst_years (k := k + 1) (hP ((k + 1 - 2) / 12) (by omega) (by omega))
  have m2 := monthFirst_years (k := k + 12 * c) (hP ((k + 12 * c - 2) / 12) (by omega) (by omega))
  have hnD := civil_of_month (n := n + D) (k := k + 12 * y) (by omega)
    (by rw [show k + 12 * y + 1 = k + 1 + 12 * y by ring]; omega)
  rw [hn, hnD]
  unfold addYearsDate
  simp only
  rw [show (k + 12 * y) / 12 = k / 12 + y by omega, show (k + 12 * y) % 12 = k % 12 by omega,
    show n + D - monthFirst (k + 12 * y) + 1 = n - monthFirst k + 1 by omega,
    show k / 12 + y + c = k / 12 + c + y by ring, hL]
  have e1 : ∀ x : Int, dayNumber ⟨k / 12 + c + y, k % 12 + 1, x⟩ = monthFirst (k + 12 * c + 12 * y) + x - 1 := by
    intro x
    have := dayNumber_day (k + 12 * c + 12 * y) x
    rwa [show (k + 12 * c + 12 * y) / 12 = k / 12 + c + y by omega, show (k + 12 * c + 12 * y) % 12 = k % 12 by omega] at this
  have e2 : ∀ x : Int, dayNumber ⟨k / 12 + c, k % 12 + 1, x⟩ = monthFirst (k + 12 * c) + x - 1 := by
    intro x
    have := dayNumber_day (k + 12 * c) x
    rwa [show (k + 12 * c) / 12 = k / 12 + c by omega, show (k + 12 * c) % 12 = k % 12 by omega] at this
  rw [e1, e2, m2]
  ring

theorem addYears_years {t y D c : Int} (hc : 0 ≤ c)
    (hP : ∀ Y, (civil (t / dayNs)).year - 1 ≤ Y → Y ≤ (civil (t / dayNs)).year + c → marchDays (Y + y) = marchDays Y + D)
    (hL : isLeap ((civil (t / dayNs)).year + c + y) = isLeap ((civil (t / dayNs)).year + c)) :
    addYears c (t + D * dayNs) = addYears c t + D * dayNs := by
  unfold addYears
  rw [Int.add_mul_ediv_right _ _ (ne_of_gt dayNs_pos), Int.add_mul_emod_self_right, dayNumber_years hc hP hL]
  ring

theorem isLeap_four {y j : Int} (h1 : 1901 ≤ y) (h2 : y ≤ 2099) (h3 : 1901 ≤ y + 4 * j) (h4 : y + 4 * j ≤ 2099) :
    isLeap (y + 4 * j) = isLeap y := by
  unfold isLeap
  rw [decide_eq_decide]
  omega

theorem isLeap_400 (y j : Int) : isLeap (y + 400 * j) = isLeap y := by
  unfold isLeap
  rw [decide_eq_decide]
  omega

theorem commutes_four {t j : Int} (h1 : 1901 ≤ (civil (t / dayNs)).year) (h2 : (civil (t / dayNs)).year ≤ 2097)
    (h3 : 1901 ≤ (civil (t / dayNs)).year + 4 * j) (h4 : (civil (t / dayNs)).year + 4 * j ≤ 2097) :
    Commutes (1461 * j * dayNs) t :=
  ⟨addYears_years (by norm_num) (fun Y a b => marchDays_four (by omega) (by omega) (by omega) (by omega))
      (isLeap_four (by omega) (by omega) (by omega) (by omega)),
    addYears_years (by norm_num) (fun Y a b => marchDays_four (by omega) (by omega) (by omega) (by omega))
      (isLeap_four (by omega) (by omega) (by omega) (by omega))⟩

theorem commutes_400 (t j : Int) : Commutes (146097 * j * dayNs) t :=
  ⟨addYears_years (by norm_num) (fun Y _ _ => marchDays_400 Y j) (isLeap_400 _ j),
    addYears_years (by norm_num) (fun Y _ _ => marchDays_400 Y j) (isLeap_400 _ j)⟩

end Verif.Move
