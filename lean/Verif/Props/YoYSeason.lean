import Verif.Props.YearOnYear
import Verif.Lemmas.Anniversary

/-! # C135: in a year-on-year analysis seasons cancel and trends add up -/

namespace Verif

open Spec

variable {inferFreq : List Int → Option Int} {recenter : Bool} {exceed conf : ℚ} {method : Uncertainty}
  {block : Nat} {choose : List ℚ → List (List ℚ)} {draws : List (List Nat)} {s : Series} {r r' : YoYResult}

theorem sortIndex_plus (s : Series) (g : Int → ℚ) : sortIndex (plus s g) = plus (sortIndex s) g := by
  unfold sortIndex plus
  rw [List.map_insertionSort (fun a b : Int × Cell => a.1 ≤ b.1) (fun a b : Int × Cell => a.1 ≤ b.1)]
  intros; rfl

theorem fst_plus (s : Series) (g : Int → ℚ) : (plus s g).map Prod.fst = s.map Prod.fst := by
  unfold plus
  rw [List.map_map]
  rfl

theorem length_plus (s : Series) (g : Int → ℚ) : (plus s g).length = s.length := by
  unfold plus
  rw [List.length_map]

theorem asofYear_plus (s : Series) (g : Int → ℚ) (t : Int) :
    asofYear (plus s g) t = (asofYear s t).map fun p => (p.1, p.2.map fun e => e + g p.1) := by
  unfold asofYear
  have h : (plus s g).insertionSort (fun a b => addYears 1 a.1 ≤ addYears 1 b.1) =
      plus (s.insertionSort fun a b => addYears 1 a.1 ≤ addYears 1 b.1) g := by
    unfold plus
    rw [List.map_insertionSort (fun a b : Int × Cell => addYears 1 a.1 ≤ addYears 1 b.1)
      (fun a b : Int × Cell => addYears 1 a.1 ≤ addYears 1 b.1)]
    intros; rfl
  rw [h]
  unfold plus
  rw [List.filter_map, List.getLast?_map]
  simp only [Function.comp_def]
  cases (List.filter (fun r : Int × Cell => decide (addYears 1 r.1 ≤ t))
      (s.insertionSort fun a b => addYears 1 a.1 ≤ addYears 1 b.1)).getLast? with
  | none => rfl
  | some p =>
    simp only [Option.map_some]
    split <;> rfl

theorem asofYear_scaled (s : Series) (k : Cell) (t : Int) :
    asofYear (renormalize s k) t =
      (asofYear s t).map fun p => (p.1, cellOp (fun x y => x / y) p.2 (if k = some 0 then none else k)) := by
  unfold asofYear
  have h : (renormalize s k).insertionSort (fun a b => addYears 1 a.1 ≤ addYears 1 b.1) =
      renormalize (s.insertionSort fun a b => addYears 1 a.1 ≤ addYears 1 b.1) k := by
    unfold renormalize
    rw [List.map_insertionSort (fun a b : Int × Cell => addYears 1 a.1 ≤ addYears 1 b.1)
      (fun a b : Int × Cell => addYears 1 a.1 ≤ addYears 1 b.1)]
    intros; rfl
  rw [h]
  unfold renormalize
  rw [List.filter_map, List.getLast?_map]
  simp only [Function.comp_def]
  cases (List.filter (fun r : Int × Cell => decide (addYears 1 r.1 ≤ t))
      (s.insertionSort fun a b => addYears 1 a.1 ≤ addYears 1 b.1)).getLast? with
  | none => rfl
  | some p =>
    simp only [Option.map_some]
    split <;> rfl

/-- a row with another value -/
def mapRow (f : ℚ → ℚ) (x : YoYRow) : YoYRow := { x with yoy := x.yoy.map f }

theorem find_mapRow (f : ℚ → ℚ) (tbl : List YoYRow) (t : Int) :
    (tbl.map (mapRow f)).find? (fun y => decide (y.right = some t)) =
      (tbl.find? fun y => decide (y.right = some t)).map (mapRow f) := by
  rw [List.find?_map]
  rfl

theorem usage_mapRow (f : ℚ → ℚ) (tbl : List YoYRow) : usageOfPoints (tbl.map (mapRow f)) = usageOfPoints tbl := by
  unfold usageOfPoints
  rw [List.map_map]
  apply List.map_congr_left
  intro x _
  have h := find_mapRow f tbl x.dt
  have hd : (mapRow f x).dt = x.dt := rfl
  simp only [Function.comp_apply, hd, h]
  cases List.find? (fun y : YoYRow => decide (y.right = some x.dt)) tbl with
  | none => simp [mapRow, Option.isSome_map]
  | some y => simp [mapRow, Option.isSome_map]

theorem valids_mapRow (f : ℚ → ℚ) (tbl : List YoYRow) :
    valids ((tbl.map (mapRow f)).map YoYRow.yoy) = (valids (tbl.map YoYRow.yoy)).map f := by
  induction tbl with
  | nil => rfl
  | cons a l ih =>
    cases h : a.yoy <;> simp [valids, mapRow, h] at ih ⊢ <;> exact ih

theorem values_mapRow (f : ℚ → ℚ) (tbl : List YoYRow) :
    ((tbl.map (mapRow f)).filterMap fun x => x.yoy.map fun v => (x.dt, v)) =
      (tbl.filterMap fun x => x.yoy.map fun v => (x.dt, v)).map fun p => (p.1, f p.2) := by
  rw [List.filterMap_map, List.map_filterMap]
  apply List.filterMap_congr
  intro x _
  cases h : x.yoy <;> simp [mapRow, h]

/-- the year-on-year table of the data plus a pattern -/
theorem yoyTable_plus {s : Series} (hs : StrictSorted (s.map Prod.fst)) {g : Int → ℚ} {b : ℚ}
    (hpat : ∀ t ∈ s.map Prod.fst, ∀ u, LatestAnniversary (s.map Prod.fst) t u → g t - g u = b * yearsAfter u t) :
    yoyTable (plus s g) = (yoyTable s).map (mapRow (· + 100 * b)) := by
  unfold yoyTable
  rw [List.map_map]
  conv_lhs => unfold plus
  rw [List.map_map]
  apply List.map_congr_left
  rintro ⟨t, x⟩ hx
  simp only [Function.comp_apply]
  change (match asofYear (plus s g) t with
    | none => (⟨t, none, none⟩ : YoYRow)
    | some (u, e) => ⟨t, some u, cellOp (fun a b => 100 * (a - b) / (((t : ℚ) - u) / (365 * dayNs)))
        (x.map fun e => e + g t) e⟩) = _
  rw [asofYear_plus]
  cases ha : asofYear s t with
  | none => rfl
  | some p =>
    obtain ⟨u, e⟩ := p
    simp only [Option.map_some, mapRow]
    congr 1
    obtain ⟨hm, hl⟩ := (asofYear_eq_some hs).mp ha
    have hg := hpat t (List.mem_map.mpr ⟨_, hx, rfl⟩) u hl
    have hlt : (u : ℚ) < t := by
      have h1 := (C21_partner_unique hl hl).2.1
      have := dayNs_pos
      exact_mod_cast (by linarith : u < t)
    cases x with
    | none => rfl
    | some x =>
      cases e with
      | none => rfl
      | some e =>
        simp only [Option.map_some, cellOp, Option.some.injEq]
        unfold yearsAfter at hg
        have hd : (0 : ℚ) < dayNs := by exact_mod_cast dayNs_pos
        have hne : ((t : ℚ) - u) / (365 * dayNs) ≠ 0 := by
          apply ne_of_gt; apply div_pos <;> linarith
        generalize ((t : ℚ) - u) / (365 * dayNs) = y at *
        field_simp
        linarith

/-- the year-on-year table of recentred data -/
theorem yoyTable_renormalize (s : Series) {k : ℚ} (hk : k ≠ 0) :
    yoyTable (renormalize s (some k)) = (yoyTable s).map (mapRow (k⁻¹ * ·)) := by
  unfold yoyTable
  rw [List.map_map]
  conv_lhs => unfold renormalize
  rw [List.map_map]
  apply List.map_congr_left
  rintro ⟨t, x⟩ hx
  simp only [Function.comp_apply]
  change (match asofYear (renormalize s (some k)) t with
    | none => (⟨t, none, none⟩ : YoYRow)
    | some (u, e) => ⟨t, some u, cellOp (fun a b => 100 * (a - b) / (((t : ℚ) - u) / (365 * dayNs)))
        (cellOp (fun x y => x / y) x (if some k = some 0 then none else some k)) e⟩) = _
  rw [asofYear_scaled]
  have h0 : (if (some k : Cell) = some 0 then none else some k) = some k := by
    rw [if_neg]; simpa using hk
  rw [h0]
  cases asofYear s t with
  | none => rfl
  | some p =>
    obtain ⟨u, e⟩ := p
    simp only [Option.map_some, mapRow]
    congr 1
    cases x with
    | none => rfl
    | some x =>
      cases e with
      | none => rfl
      | some e =>
        simp only [Option.map_some, cellOp, Option.some.injEq]
        field_simp

theorem renormalize_one (s : Series) : renormalize s (some 1) = s := by
  unfold renormalize
  conv_rhs => rw [← List.map_id s]
  apply List.map_congr_left
  rintro ⟨t, x⟩ _
  cases x <;> simp [cellOp]

theorem sorted_pattern {s : Series} {P : List Int → Int → Int → Prop}
    (h : ∀ t ∈ s.map Prod.fst, ∀ u, LatestAnniversary (s.map Prod.fst) t u → P [] t u) :
    ∀ t ∈ (sortIndex s).map Prod.fst, ∀ u, LatestAnniversary ((sortIndex s).map Prod.fst) t u → P [] t u := by
  have hm : ∀ w, w ∈ (sortIndex s).map Prod.fst ↔ w ∈ s.map Prod.fst := fun w =>
    ((sortIndex_perm s).map _).mem_iff
  intro t ht u hu
  refine h t ((hm t).mp ht) u ⟨(hm u).mp hu.mem, hu.notAfter, hu.within, fun w hw => hu.latest w ((hm w).mpr hw)⟩

theorem median_add (c : ℚ) (l : List ℚ) : median (l.map (· + c)) = (median l).map (· + c) := by
  have := quantile_affine (l := l) (a := 1) (by norm_num) c (q := 1 / 2) (by norm_num) (by norm_num)
  simpa [median] using this

theorem percentileE_add (c : ℚ) (l : List ℚ) (p : ℚ) :
    percentileE (l.map (· + c)) p = (percentileE l p).map (· + c) := by
  unfold percentileE
  split_ifs with h
  · rfl
  · push Not at h
    cases l with
    | nil => rfl
    | cons a l =>
      have := quantile_affine (l := a :: l) (a := 1) (by norm_num) c (q := p / 100) (by linarith) (by linarith)
      simp only [one_mul] at this
      rw [quantile_some (by simp), quantile_some (by simp)] at this
      simp only [Option.map_some, Option.some.injEq] at this
      simp only [List.map_cons, Except.map] at this ⊢
      rw [this]

/-- the result with every rate changed by `c` -/
def Spec.raised (c : ℚ) (r : YoYResult) : YoYResult :=
  { r with rd := r.rd + c, ci := r.ci.map fun x => (x.1 + c, x.2 + c), exceedance := r.exceedance.map (· + c)
           values := r.values.map fun p => (p.1, p.2 + c) }

theorem confidenceInterval_add (c : ℚ) (l : List ℚ) (exceed conf : ℚ) :
    confidenceInterval (l.map (· + c)) exceed conf =
      (confidenceInterval l exceed conf).map fun x => ((x.1.1 + c, x.1.2 + c), x.2 + c) := by
  unfold confidenceInterval
  simp only [percentileE_add]
  generalize percentileE l (50 - conf / 2) = A
  generalize percentileE l (50 + conf / 2) = B
  generalize percentileE l (100 - exceed) = C
  cases A with
  | error e => rfl
  | ok a =>
    cases B with
    | error e => rfl
    | ok b => cases C <;> rfl

theorem medians_add (c : ℚ) (L : List (List ℚ)) :
    (L.map fun l => l.map (· + c)).filterMap median = (L.filterMap median).map (· + c) := by
  rw [List.filterMap_map, List.map_filterMap]
  apply List.filterMap_congr
  intro l _
  exact median_add c l

/-- **C135 (patterns).** Without recentering, adding to the data a function of time that changes by the same amount `b` per
year between any two samples that are compared changes every year-on-year value, the rate, both ends of the confidence interval and
the exceedance level by exactly `100·b`, and nothing else. The bootstrap draws positions, not values. -/
theorem C135_pattern (hm : method ≠ .circularBlock)
    (hch : ∀ (l : List ℚ) (c : ℚ), choose (l.map (· + c)) = (choose l).map fun m => m.map (· + c))
    (hd : (s.map Prod.fst).Nodup) {g : Int → ℚ} {b : ℚ}
    (hpat : ∀ t ∈ s.map Prod.fst, ∀ u, LatestAnniversary (s.map Prod.fst) t u → g t - g u = b * yearsAfter u t) :
    yoy inferFreq false exceed conf method block choose draws (plus s g) =
      (yoy inferFreq false exceed conf method block choose draws s).map (raised (100 * b)) := by
  have htbl : yoyTable (plus (sortIndex s) g) = (yoyTable (sortIndex s)).map (mapRow (· + 100 * b)) :=
    yoyTable_plus (sortIndex_strict hd) (sorted_pattern (P := fun _ t u => g t - g u = b * yearsAfter u t) hpat)
  have hcore : yoyCore inferFreq false none (plus s g) =
      (yoyCore inferFreq false none s).map fun c => ⟨plus c.sorted g, c.renorm, c.table.map (mapRow (· + 100 * b)),
        c.rates.map (· + 100 * b), c.rd + 100 * b⟩ := by
    unfold yoyCore
    simp only [sortIndex_plus, fst_plus, length_plus, yoyRenorm, Bool.false_eq_true, if_false, renormalize_one, htbl, valids_mapRow,
      median_add]
    split_ifs
    all_goals try rfl
    generalize median (valids ((yoyTable (sortIndex s)).map YoYRow.yoy)) = M
    cases M <;> rfl
  unfold yoy
  rw [if_neg hm, hcore]
  generalize yoyCore inferFreq false none s = X
  cases X with
  | error e => rfl
  | ok c =>
    simp only [Except.map, Except.bind, usage_mapRow, values_mapRow]
    cases method with
    | circularBlock => exact absurd rfl hm
    | none => rfl
    | simple =>
      simp only [hch, medians_add, confidenceInterval_add]
      generalize confidenceInterval ((choose c.rates).filterMap median) exceed conf = Y
      cases Y <;> rfl

/-- **C135 (patterns, recentred).** With or without recentering and for every uncertainty method, the rate in units of the data,
that is times the recentering factor, changes by exactly `100·b`. -/
theorem C135_pattern_recentred (hd : (s.map Prod.fst).Nodup) {g : Int → ℚ} {b : ℚ}
    (hpat : ∀ t ∈ s.map Prod.fst, ∀ u, LatestAnniversary (s.map Prod.fst) t u → g t - g u = b * yearsAfter u t)
    (h : yoy inferFreq recenter exceed conf method block choose draws s = .ok r)
    (h' : yoy inferFreq recenter exceed conf method block choose draws (plus s g) = .ok r') :
    ∃ k k', r.renorm = some k ∧ r'.renorm = some k' ∧ k ≠ 0 ∧ k' ≠ 0 ∧ k' * r'.rd = k * r.rd + 100 * b := by
  have htbl : yoyTable (plus (sortIndex s) g) = (yoyTable (sortIndex s)).map (mapRow (· + 100 * b)) :=
    yoyTable_plus (sortIndex_strict hd) (sorted_pattern (P := fun _ t u => g t - g u = b * yearsAfter u t) hpat)
  -- the factor of a successful analysis is nonzero, and the rate the median over it
  have key : ∀ {x : Series} {y : YoYResult}, yoy inferFreq recenter exceed conf method block choose draws x = .ok y →
      ∃ k m, y.renorm = some k ∧ k ≠ 0 ∧ median (valids ((yoyTable (sortIndex x)).map YoYRow.yoy)) = some m ∧ y.rd = k⁻¹ * m := by
    intro x y hy
    obtain ⟨c, hc, h1, h2, -, hv⟩ := yoy_ok hy
    obtain ⟨-, g2, g3, g4, g5⟩ := yoyCore_ok hc
    have hk : ∃ k, c.renorm = some k ∧ k ≠ 0 := by
      by_contra hx
      have hx' : (if c.renorm = some 0 then none else c.renorm) = none := by
        cases hr : c.renorm with
        | none => rfl
        | some k =>
          by_cases hk0 : k = 0
          · rw [hk0, if_pos rfl]
          · exact absurd ⟨k, hr, hk0⟩ hx
      have hnone : c.rates = [] := by
        rw [g4, g3, g2]
        unfold valids
        rw [List.filterMap_eq_nil_iff]
        intro cell hcell
        obtain ⟨row, hrow, rfl⟩ := List.mem_map.mp hcell
        unfold yoyTable renormalize at hrow
        rw [List.map_map] at hrow
        obtain ⟨p, -, rfl⟩ := List.mem_map.mp hrow
        simp only [Function.comp_apply, hx', id]
        split
        · rfl
        · simp [cellOp]
      rw [hnone] at g5
      exact absurd g5 (by simp [median, quantile])
    obtain ⟨k, hk, hk0⟩ := hk
    rw [hk] at g2
    rw [g4, g3, g2, yoyTable_renormalize _ hk0, valids_mapRow, median_mul (inv_ne_zero hk0)] at g5
    obtain ⟨m, hm, hm'⟩ := Option.map_eq_some_iff.mp g5
    exact ⟨k, m, by rw [h2, hk], hk0, hm, by rw [h1, ← hm']⟩
  obtain ⟨k, m, a1, a2, a3, a4⟩ := key h
  obtain ⟨k', m', b1, b2, b3, b4⟩ := key h'
  rw [sortIndex_plus, htbl, valids_mapRow, median_add, a3] at b3
  simp only [Option.map_some, Option.some.injEq] at b3
  refine ⟨k, k', a1, b1, a2, b2, ?_⟩
  rw [a4, b4, ← b3]
  field_simp

theorem trend_pattern (t0 : Int) (b : ℚ) (t u : Int) :
    b * yearsAfter t0 t - b * yearsAfter t0 u = b * yearsAfter u t := by
  unfold yearsAfter
  ring

/-- **C135 (trends add).** Without recentering, adding a line to the data adds its slope in percent per year to every
year-on-year value, the rate, the confidence interval and the exceedance level, for any sampling. -/
theorem C135_trend (hm : method ≠ .circularBlock)
    (hch : ∀ (l : List ℚ) (c : ℚ), choose (l.map (· + c)) = (choose l).map fun m => m.map (· + c))
    (hd : (s.map Prod.fst).Nodup) (a b : ℚ) (t0 : Int) :
    yoy inferFreq false exceed conf method block choose draws (plus s fun t => a + b * yearsAfter t0 t) =
      (yoy inferFreq false exceed conf method block choose draws s).map (raised (100 * b)) :=
  C135_pattern hm hch hd fun t _ u _ => by
    have := trend_pattern t0 b t u
    linarith

theorem season_pattern {times : List Int} (hc : CompleteDaily times) {g : Int → ℚ} (hg : RepeatsYearly g) {t u : Int} (ht : t ∈ times)
    (hl : LatestAnniversary times t u) : g t = g u :=
  hg t u (sameDay_of_anniversary hc ht hl)

/-- **C135 (seasons cancel).** With one sample per day, present or missing, and without recentering, adding to the data any
quantity that repeats every year changes nothing at all. -/
theorem C135_season (hm : method ≠ .circularBlock)
    (hch : ∀ (l : List ℚ) (c : ℚ), choose (l.map (· + c)) = (choose l).map fun m => m.map (· + c))
    (hd : (s.map Prod.fst).Nodup) (hc : CompleteDaily (s.map Prod.fst)) {g : Int → ℚ} (hg : RepeatsYearly g) :
    yoy inferFreq false exceed conf method block choose draws (plus s g) =
      yoy inferFreq false exceed conf method block choose draws s := by
  rw [C135_pattern (b := 0) hm hch hd fun t ht u hl => by rw [season_pattern hc hg ht hl]; ring]
  have h0 : (raised (100 * 0) : YoYResult → YoYResult) = id := by
    funext r
    have hci : (r.ci.map fun x : ℚ × ℚ => (x.1, x.2)) = r.ci := by cases r.ci <;> rfl
    have hex : (r.exceedance.map fun x : ℚ => x) = r.exceedance := by cases r.exceedance <;> rfl
    have hv : (r.values.map fun p : Int × ℚ => (p.1, p.2)) = r.values := List.map_id _
    simp only [raised, mul_zero, add_zero, hci, hex, hv, id]
  rw [h0]
  cases yoy inferFreq false exceed conf method block choose draws s <;> rfl

/-- **C135 (seasons cancel, recentred).** With one sample per day, for any choice of recentering and of the uncertainty method,
the rate in units of the data is the same with and without an added quantity that repeats every year. -/
theorem C135_season_recentred (hd : (s.map Prod.fst).Nodup) (hc : CompleteDaily (s.map Prod.fst)) {g : Int → ℚ} (hg : RepeatsYearly g)
    (h : yoy inferFreq recenter exceed conf method block choose draws s = .ok r)
    (h' : yoy inferFreq recenter exceed conf method block choose draws (plus s g) = .ok r') :
    ∃ k k', r.renorm = some k ∧ r'.renorm = some k' ∧ k ≠ 0 ∧ k' ≠ 0 ∧ k' * r'.rd = k * r.rd := by
  obtain ⟨k, k', h1, h2, h3, h4, h5⟩ := C135_pattern_recentred (b := 0) hd
    (fun t ht u hl => by rw [season_pattern hc hg ht hl]; ring) h h'
  exact ⟨k, k', h1, h2, h3, h4, by linarith⟩

/-- **C135 (seasonal data).** If the index has one sample per day and every present value is a line plus a quantity that repeats
every year, then every year-on-year value and the rate are exactly the slope of the line in percent of the recentering factor,
whatever samples are missing. -/
theorem C135_seasonal_exact
    (h : yoy inferFreq recenter exceed conf method block choose draws s = .ok r)
    (hd : (s.map Prod.fst).Nodup) (hc : CompleteDaily (s.map Prod.fst)) {g : Int → ℚ} (hg : RepeatsYearly g) (b : ℚ) (t0 : Int)
    (hval : ∀ t e, (t, some e) ∈ s → e = g t + b * yearsAfter t0 t) :
    ∃ k, r.renorm = some k ∧ k ≠ 0 ∧ r.rd = 100 * b / k ∧ ∀ p ∈ r.values, p.2 = 100 * b / k := by
  have hm := isMedian_iff.mp (C22_median h)
  have hne : r.values.map Prod.snd ≠ [] := by
    rw [← median_isSome, hm]; rfl
  have hv : ∀ p ∈ r.values, ∃ k, r.renorm = some k ∧ k ≠ 0 ∧ p.2 = 100 * b / k := by
    rintro ⟨t, v⟩ hp
    obtain ⟨e, f, u, k, hk, hk0, he, hf, hl, rfl⟩ := (C21_pairs h hd t v).mp hp
    refine ⟨k, hk, hk0, ?_⟩
    have hlt : (u : ℚ) < t := by
      have := (C21_partner_unique hl hl).2.1
      have := dayNs_pos
      exact_mod_cast (by linarith : u < t)
    have hD : (0 : ℚ) < dayNs := by exact_mod_cast dayNs_pos
    have hne' : (t : ℚ) - u ≠ 0 := by linarith
    rw [hval t e he, hval u f hf, season_pattern hc hg (List.mem_map.mpr ⟨_, he, rfl⟩) hl]
    unfold yearsAfter
    field_simp
    ring
  obtain ⟨p, hp⟩ := List.exists_mem_of_ne_nil _ hne
  obtain ⟨p, hp, -⟩ := List.mem_map.mp hp
  obtain ⟨k, hk, hk0, -⟩ := hv p hp
  have hall : ∀ p ∈ r.values, p.2 = 100 * b / k := by
    intro p hp
    obtain ⟨k', hk', -, hv⟩ := hv p hp
    rw [hk, Option.some.injEq] at hk'
    subst hk'
    exact hv
  refine ⟨k, hk, hk0, ?_, hall⟩
  apply median_const hm
  intro x hx
  obtain ⟨p, hp, rfl⟩ := List.mem_map.mp hx
  exact hall p hp

/-! ## Cases -/

/-- resampling positions is a bootstrap that meets the condition -/
example (l : List ℚ) (c : ℚ) : (fun l : List ℚ => [l, l.take 2, l.drop 1]) (l.map (· + c)) =
    ((fun l : List ℚ => [l, l.take 2, l.drop 1]) l).map fun m => m.map (· + c) := by
  simp

/-- 800 days from 15 January 2019, over the leap day of 2020, are one sample per day -/
example : CompleteDaily (((List.range 800).map fun k : Nat => (17911 + (k : Int)) * dayNs)) := by
  refine ⟨17911 * dayNs, 800, fun t => ?_⟩
  simp only [List.mem_map, List.mem_range]
  constructor
  · rintro ⟨k, hk, rfl⟩; exact ⟨k, hk, by ring⟩
  · rintro ⟨k, hk, rfl⟩; exact ⟨k, hk, by ring⟩

/-- lower production in the winter months and at 5 April -/
def winterDip (t : Int) : ℚ :=
  (if (civil (t / dayNs)).month ∈ ([1, 2, 11, 12] : List Int) then -3 else 0) +
    if (civil (t / dayNs)).month = 4 ∧ (civil (t / dayNs)).day = 5 then -7 else 0

example : RepeatsYearly winterDip ∧ winterDip (18321 * dayNs) = -3 ∧ winterDip (18357 * dayNs) = -7 ∧
    winterDip (18358 * dayNs) = 0 := by
  refine ⟨?_, by decide +kernel, by decide +kernel, by decide +kernel⟩
  rintro t u ⟨-, hm, hd⟩
  unfold winterDip
  rcases hd with hd | ⟨h2, -, -⟩
  · rw [hm, hd]
  · have h2' := h2
    rw [hm] at h2'
    simp [h2, h2']

/-- Where days are left out a season need not cancel: here 1 March 2020 is compared with 28 February 2019. -/
example : (yoy noFreq false 95 68 .none 30 (fun _ => []) []
      [(17955 * dayNs, some 1), (18322 * dayNs, some 1), (18688 * dayNs, some 1)]).toOption.map (·.values) =
      some [(18322 * dayNs, 0), (18688 * dayNs, 0)] ∧
    (yoy noFreq false 95 68 .none 30 (fun _ => []) [] (plus
      [(17955 * dayNs, some 1), (18322 * dayNs, some 1), (18688 * dayNs, some 1)]
      fun t => if (civil (t / dayNs)).month = 3 then 367/365 else 0)).toOption.map (·.values) =
      some [(18322 * dayNs, 100), (18688 * dayNs, 0)] := by
  refine ⟨?_, ?_⟩ <;> decide +kernel

example : (exampleYoY.map Prod.fst).Nodup ∧
    (yoy noFreq false 95 68 .none 30 (fun _ => []) [] (plus exampleYoY fun t => 3 + 1/50 * yearsAfter 0 t)).toOption.map (·.values) =
    some [(18320 * dayNs, 102), (18321 * dayNs, 2 - 36500/366), (18686 * dayNs, -198), (19051 * dayNs, -98)] := by
  refine ⟨?_, ?_⟩ <;> decide +kernel

end Verif
