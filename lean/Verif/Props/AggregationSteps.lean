import Verif.Props.AggregationBins
import Verif.Props.Aggregation

/-! C128: aggregating in two steps. -/

namespace Verif

namespace Spec

/-- the number in a float, if it is one -/
def asCell : Flt → Cell
  | .fin q => some q
  | _ => none

/-- Total insolation of the samples of a period, missing ones skipped. -/
def insolationIn (rows : List InsolRow) (L freq : Int) : ℚ :=
  ((inPeriod rows L freq).map fun r => r.insol.getD 0).sum

/-- The record a user has after the first step: for every reported period its label, its total
insolation and its aggregated energy. -/
def firstStep (rows : List InsolRow) (freq : Int) : List InsolRow :=
  (aggregationInsol rows freq).map fun p => ⟨p.1, some (insolationIn rows p.1 freq), asCell p.2⟩

end Spec

open Spec

theorem skipnaSum_getD (l : List Cell) : skipnaSum l = (l.map fun c => c.getD 0).sum := by
  induction l with
  | nil => rfl
  | cons c l ih =>
    cases c with
    | none => simp [skipnaSum_none, ih]
    | some a => simp [skipnaSum_some, ih]

/-- numerator of a row -/
def rowNum (r : InsolRow) : ℚ := (cellOp (· * ·) r.insol r.energy).getD 0
/-- denominator of a row -/
def rowDen (r : InsolRow) : ℚ := r.insol.getD 0

theorem mem_agg_value {rows : List InsolRow} {freq L : Int} {v : Flt} (hf : 0 < freq)
    (h : (L, v) ∈ aggregationInsol rows freq) :
    v = Flt.ofDiv ((inPeriod rows L freq).map rowNum).sum ((inPeriod rows L freq).map rowDen).sum := by
  have := mem_aggregationInsol hf h
  rw [this, skipnaSum_getD, skipnaSum_getD, List.map_map, List.map_map]
  rfl

/-- The result is determined by its labels. -/
theorem agg_eq_map {rows : List InsolRow} {freq : Int} (hf : 0 < freq) :
    aggregationInsol rows freq = ((aggregationInsol rows freq).map Prod.fst).map fun L =>
      (L, Flt.ofDiv ((inPeriod rows L freq).map rowNum).sum
        ((inPeriod rows L freq).map rowDen).sum) := by
  rw [List.map_map]
  conv_lhs => rw [← List.map_id (aggregationInsol rows freq)]
  apply List.map_congr_left
  intro p hp
  obtain ⟨L, v⟩ := p
  simp only [id, Function.comp_apply]
  rw [← mem_agg_value hf hp]

theorem sum_one_label {ls : List Int} (hn : ls.Nodup) {P : Int → Prop} [DecidablePred P] {l0 : Int}
    (h0 : l0 ∈ ls) (hu : ∀ l ∈ ls, P l ↔ l = l0) (g : ℚ) :
    (ls.map fun l => if P l then g else 0).sum = g := by
  have e : (ls.map fun l => if P l then g else 0) = ls.map fun l => if l = l0 then g else 0 := by
    apply List.map_congr_left
    intro l hl
    simp only [hu l hl]
  rw [e]
  clear e hu
  induction ls with
  | nil => simp at h0
  | cons a ls ih =>
    rw [List.nodup_cons] at hn
    simp only [List.map_cons, List.sum_cons]
    by_cases ha : a = l0
    · subst ha
      have : (ls.map fun l => if l = a then g else 0) = ls.map fun _ => (0 : ℚ) := by
        apply List.map_congr_left
        intro l hl
        have : l ≠ a := fun h => hn.1 (h ▸ hl)
        simp [this]
      rw [this]; simp
    · simp only [ha, if_false, zero_add]
      exact ih hn.2 ((List.mem_cons.mp h0).resolve_left (fun h => ha h.symm))

theorem sum_filter_ite {α : Type} (l : List α) (p : α → Bool) (g : α → ℚ) :
    ((l.filter p).map g).sum = (l.map fun x => if p x then g x else 0).sum := by
  induction l with
  | nil => rfl
  | cons a l ih =>
    by_cases h : p a <;> simp [h, ih]

theorem sum_add_map {α : Type} (l : List α) (f g : α → ℚ) :
    (l.map fun x => f x + g x).sum = (l.map f).sum + (l.map g).sum := by
  induction l with
  | nil => simp
  | cons a l ih => simp only [List.map_cons, List.sum_cons, ih]; ring

/-- Sums over the fine periods within a coarse one add up to the sum over the coarse one. -/
theorem sum_nested {rows : List InsolRow} {ls : List Int} (hn : ls.Nodup) {f1 f2 L : Int}
    (hcov : ∀ r ∈ rows, ∃ l0 ∈ ls, (∀ l ∈ ls, (l ≤ r.t ∧ r.t < l + f1) ↔ l = l0) ∧
      ((L ≤ l0 ∧ l0 < L + f2) ↔ (L ≤ r.t ∧ r.t < L + f2))) (g : InsolRow → ℚ) :
    ((ls.filter fun l => decide (L ≤ l ∧ l < L + f2)).map fun l =>
      ((inPeriod rows l f1).map g).sum).sum = ((inPeriod rows L f2).map g).sum := by
  induction rows with
  | nil => simp [inPeriod]
  | cons r rows ih =>
    have i := ih fun x hx => hcov x (by simp [hx])
    obtain ⟨l0, h0, hu, hL⟩ := hcov r (by simp)
    rw [sum_filter_ite] at i ⊢
    have e1 : ∀ l : Int, (if (decide (L ≤ l ∧ l < L + f2)) = true then
        ((inPeriod (r :: rows) l f1).map g).sum else 0) =
        (if (l ≤ r.t ∧ r.t < l + f1) then (if L ≤ l ∧ l < L + f2 then g r else 0) else 0) +
        (if (decide (L ≤ l ∧ l < L + f2)) = true then ((inPeriod rows l f1).map g).sum else 0) := by
      intro l
      unfold inPeriod
      by_cases h1 : L ≤ l ∧ l < L + f2 <;> by_cases h2 : l ≤ r.t ∧ r.t < l + f1 <;>
        simp [h1, h2]
    simp only [e1]
    rw [sum_add_map, i]
    have e2 : (ls.map fun l => if (l ≤ r.t ∧ r.t < l + f1) then
        (if L ≤ l ∧ l < L + f2 then g r else 0) else 0) =
        ls.map fun l => if (l ≤ r.t ∧ r.t < l + f1) then
        (if L ≤ r.t ∧ r.t < L + f2 then g r else 0) else 0 := by
      apply List.map_congr_left
      intro l hl
      by_cases h2 : l ≤ r.t ∧ r.t < l + f1
      · have := (hu l hl).mp h2
        subst this
        simp only [hL]
      · simp [h2]
    rw [e2, sum_one_label hn h0 hu]
    unfold inPeriod
    by_cases h3 : L ≤ r.t ∧ r.t < L + f2 <;> simp [h3]

theorem sum_zero_nonneg {l : List ℚ} (h : ∀ x ∈ l, 0 ≤ x) (hs : l.sum = 0) : ∀ x ∈ l, x = 0 := by
  induction l with
  | nil => simp
  | cons a l ih =>
    have ha := h a (by simp)
    have hl : 0 ≤ l.sum := List.sum_nonneg fun x hx => h x (by simp [hx])
    rw [List.sum_cons] at hs
    intro x hx
    rcases List.mem_cons.mp hx with rfl | hx
    · linarith
    · exact ih (fun y hy => h y (by simp [hy])) (by linarith) x hx

theorem mul_den {rows : List InsolRow} (hw : ∀ r ∈ rows, ∀ w, r.insol = some w → 0 ≤ w) :
    (cellOp (· * ·) (some (rows.map rowDen).sum)
      (asCell (Flt.ofDiv (rows.map rowNum).sum (rows.map rowDen).sum))).getD 0 =
      (rows.map rowNum).sum := by
  by_cases h : (rows.map rowDen).sum = 0
  · have hd : ∀ r ∈ rows, rowDen r = 0 := by
      have hnn : ∀ x ∈ rows.map rowDen, 0 ≤ x := by
        intro x hx
        obtain ⟨r, hr, rfl⟩ := List.mem_map.mp hx
        unfold rowDen
        cases hi : r.insol with
        | none => simp
        | some w => simpa using hw r hr w hi
      intro r hr
      exact sum_zero_nonneg hnn h _ (List.mem_map.mpr ⟨r, hr, rfl⟩)
    have hz : rows.map rowNum = rows.map fun _ => (0 : ℚ) := by
      apply List.map_congr_left
      intro r hr
      have := hd r hr
      rcases r with ⟨t, _ | w, _ | e⟩ <;> simp_all [rowDen, rowNum, cellOp]
    have hs : (rows.map rowNum).sum = 0 := by rw [hz]; simp
    rw [h, hs]
    simp [Flt.ofDiv, asCell, cellOp]
  · simp only [Flt.ofDiv, h, if_false, asCell, cellOp, Option.getD_some]
    field_simp

theorem le_of_lt_add_dvd {f a b : Int} (h : f ∣ a - b) (hlt : a < b + f) : a ≤ b := by
  obtain ⟨k, hk⟩ := h
  by_contra hc
  have h1 : 0 < f * k := by omega
  have h2 : f * k < f := by omega
  have hf : 0 < f := by omega
  have hk0 : 0 < k := by
    by_contra hk0
    have := Int.mul_nonpos_of_nonneg_of_nonpos (le_of_lt hf) (not_lt.mp hk0)
    omega
  have : f * 1 ≤ f * k := Int.mul_le_mul_of_nonneg_left (by omega) (le_of_lt hf)
  omega

/-- **C128 (two steps).** Aggregating first into fine periods, and then the result, weighted by the
insolation of the fine periods, into coarse periods each made of whole fine ones, gives exactly what
aggregating the samples into the coarse periods gives: the same periods with the same values. Missing
energies, missing insolations, night-time samples and periods without samples are all allowed. -/
theorem C128_two_steps {rows : List InsolRow} {f1 f2 : Int} (h1 : 0 < f1) (h2 : 0 < f2) (hd : f1 ∣ f2)
    (hw : ∀ r ∈ rows, ∀ w, r.insol = some w → 0 ≤ w) :
    aggregationInsol (firstStep rows f1) f2 = aggregationInsol rows f2 := by
  by_cases hne : rows = []
  · subst hne; simp [firstStep, aggregationInsol]
  obtain ⟨r0, hr0, hmin⟩ := exists_earliest hne
  have e1 := Int.emod_add_mul_ediv r0.t dayNs
  have e2 := Int.emod_nonneg r0.t (ne_of_gt dayNs_pos)
  have e3 := Int.emod_lt_of_pos r0.t dayNs_pos
  set m := dayNs * (r0.t / dayNs) with hm
  have hmd : dayNs ∣ m := Dvd.intro _ rfl
  have hfine := fun L => C110_periods (L := L) h1 hr0 hmin hmd (by omega) (by omega)
  have hcoarse := fun L => C110_periods (L := L) h2 hr0 hmin hmd (by omega) (by omega)
  -- the fine period of the earliest sample
  obtain ⟨⟨L0, v0⟩, ⟨hp0, hL0, hL0'⟩, _⟩ := C02_complete h1 hr0
  simp only at hL0 hL0'
  have hL0m := (hfine L0).mp (List.mem_map.mpr ⟨_, hp0, rfl⟩)
  have hmL0 : m ≤ L0 := by
    have : f1 ∣ m - L0 := by have := (Int.dvd_neg (a := f1)).mpr hL0m.1; simpa using this
    exact le_of_lt_add_dvd this (by omega)
  -- rows of the first step
  have hmemF : ∀ {x : InsolRow}, x ∈ firstStep rows f1 →
      x.t ∈ (aggregationInsol rows f1).map Prod.fst := by
    intro x hx
    obtain ⟨p, hp, rfl⟩ := List.mem_map.mp hx
    exact List.mem_map.mpr ⟨p, hp, rfl⟩
  have hL0F : ⟨L0, some (insolationIn rows L0 f1), asCell v0⟩ ∈ firstStep rows f1 :=
    List.mem_map.mpr ⟨_, hp0, rfl⟩
  have hminF : ∀ x ∈ firstStep rows f1, L0 ≤ x.t := by
    intro x hx
    obtain ⟨a, b, _⟩ := (hfine x.t).mp (hmemF hx)
    have hdd : f1 ∣ L0 - x.t := by
      have := Int.dvd_sub hL0m.1 a
      rwa [show L0 - m - (x.t - m) = L0 - x.t by ring] at this
    exact le_of_lt_add_dvd hdd (by omega)
  have hcoarseF := fun L => C110_periods (L := L) h2 hL0F hminF hmd (by simpa using hmL0)
    (by simp only; omega)
  -- the same labels
  have hset : ∀ L, L ∈ (aggregationInsol (firstStep rows f1) f2).map Prod.fst ↔
      L ∈ (aggregationInsol rows f2).map Prod.fst := by
    intro L
    rw [hcoarseF, hcoarse]
    simp only
    constructor
    · rintro ⟨a, b, x, hx, c⟩
      refine ⟨a, ?_, ?_⟩
      · have hdd : f1 ∣ (L + f2) - L0 := by
          have := Int.dvd_sub (Int.dvd_add (dvd_trans hd a) hd) hL0m.1
          rwa [show L - m + f2 - (L0 - m) = L + f2 - L0 by ring] at this
        by_contra hc
        have := le_of_lt_add_dvd hdd (by omega)
        omega
      · obtain ⟨_, _, r, hr, d⟩ := (hfine x.t).mp (hmemF hx)
        exact ⟨r, hr, by omega⟩
    · rintro ⟨a, b, r, hr, c⟩
      refine ⟨a, by omega, ?_⟩
      obtain ⟨⟨l, v⟩, ⟨hp, hl, hl'⟩, _⟩ := C02_complete h1 hr
      simp only at hl hl'
      refine ⟨_, List.mem_map.mpr ⟨_, hp, rfl⟩, ?_⟩
      simp only
      obtain ⟨la, _, _⟩ := (hfine l).mp (List.mem_map.mpr ⟨_, hp, rfl⟩)
      have hdd : f1 ∣ L - l := by
        have := Int.dvd_sub (dvd_trans hd a) la
        rwa [show L - m - (l - m) = L - l by ring] at this
      exact le_of_lt_add_dvd hdd (by omega)
  have hlab : (aggregationInsol (firstStep rows f1) f2).map Prod.fst =
      (aggregationInsol rows f2).map Prod.fst := by
    have s1 := C110_chronological (rows := firstStep rows f1) h2
    have s2 := C110_chronological (rows := rows) h2
    have hp : List.Perm ((aggregationInsol (firstStep rows f1) f2).map Prod.fst)
        ((aggregationInsol rows f2).map Prod.fst) :=
      (List.perm_ext_iff_of_nodup (s1.imp fun h => ne_of_lt h) (s2.imp fun h => ne_of_lt h)).mpr hset
    exact hp.eq_of_pairwise (fun a b _ _ h h' => absurd h (lt_asymm h')) s1 s2
  rw [agg_eq_map h2, agg_eq_map (rows := rows) h2, hlab]
  apply List.map_congr_left
  intro L hL
  have hLm := ((hcoarse L).mp hL).1
  -- sums over fine periods
  have hnd : ((aggregationInsol rows f1).map Prod.fst).Nodup :=
    (C110_chronological (rows := rows) h1).imp fun h => ne_of_lt h
  have hcov : ∀ r ∈ rows, ∃ l0 ∈ (aggregationInsol rows f1).map Prod.fst,
      (∀ l ∈ (aggregationInsol rows f1).map Prod.fst, (l ≤ r.t ∧ r.t < l + f1) ↔ l = l0) ∧
      ((L ≤ l0 ∧ l0 < L + f2) ↔ (L ≤ r.t ∧ r.t < L + f2)) := by
    intro r hr
    obtain ⟨⟨l0, v⟩, ⟨hp, hl, hl'⟩, hu⟩ := C02_complete h1 hr
    simp only at hl hl'
    have hl0 : l0 ∈ (aggregationInsol rows f1).map Prod.fst := List.mem_map.mpr ⟨_, hp, rfl⟩
    have la := ((hfine l0).mp hl0).1
    refine ⟨l0, hl0, ?_, ?_⟩
    · intro l hlm
      constructor
      · intro hh
        obtain ⟨p, hp', rfl⟩ := List.mem_map.mp hlm
        have := hu p ⟨hp', hh.1, hh.2⟩
        rw [this]
      · rintro rfl; exact ⟨hl, hl'⟩
    · have hd1 : f1 ∣ L - l0 := by
        have := Int.dvd_sub (dvd_trans hd hLm) la
        rwa [show L - m - (l0 - m) = L - l0 by ring] at this
      have hd2 : f1 ∣ (L + f2) - l0 := by
        have := Int.dvd_add hd1 hd
        rwa [show L - l0 + f2 = L + f2 - l0 by ring] at this
      constructor
      · rintro ⟨a, b⟩
        refine ⟨by omega, ?_⟩
        by_contra hc
        have := le_of_lt_add_dvd hd2 (by omega)
        omega
      · rintro ⟨a, b⟩
        exact ⟨le_of_lt_add_dvd hd1 (by omega), by omega⟩
  have hn := sum_nested hnd hcov rowNum
  have hdn := sum_nested hnd hcov rowDen
  have key : ∀ g : InsolRow → ℚ, ∀ g' : InsolRow → ℚ,
      (∀ p ∈ aggregationInsol rows f1,
        g' ⟨p.1, some (insolationIn rows p.1 f1), asCell p.2⟩ = ((inPeriod rows p.1 f1).map g).sum) →
      ((inPeriod (firstStep rows f1) L f2).map g').sum =
        ((((aggregationInsol rows f1).map Prod.fst).filter fun l => decide (L ≤ l ∧ l < L + f2)).map
          fun l => ((inPeriod rows l f1).map g).sum).sum := by
    intro g g' hg
    unfold firstStep
    generalize aggregationInsol rows f1 = A at hg
    rw [sum_filter_ite]
    conv_lhs => unfold inPeriod
    rw [sum_filter_ite, List.map_map, List.map_map]
    congr 1
    apply List.map_congr_left
    intro p hp
    simp only [Function.comp_apply]
    rw [hg p hp]
  have kd := key rowDen rowDen (by
    intro p _
    rfl)
  have kn := key rowNum rowNum (by
    intro p hp
    obtain ⟨l, v⟩ := p
    have hv := mem_agg_value h1 hp
    simp only
    rw [hv]
    exact mul_den (rows := inPeriod rows l f1) fun r hr => hw r (List.mem_of_mem_filter hr))
  rw [kd, kn, hn, hdn]

/-- Half days first, then days: the same as days at once, with a missing energy and a night. -/
example :
    let rows : List InsolRow := [⟨3600 * 10^9, some 2, some 1⟩, ⟨7200 * 10^9, some 1, none⟩,
      ⟨50000 * 10^9, some 3, some 4⟩, ⟨dayNs + 7, some 0, some 5⟩, ⟨3 * dayNs + 5, some 1, some 3⟩]
    firstStep rows (dayNs / 2) =
      [⟨0, some 3, some (2/3)⟩, ⟨dayNs / 2, some 3, some 4⟩, ⟨dayNs, some 0, none⟩,
        ⟨dayNs / 2 * 3, some 0, none⟩, ⟨2 * dayNs, some 0, none⟩, ⟨dayNs / 2 * 5, some 0, none⟩,
        ⟨3 * dayNs, some 1, some 3⟩] ∧
    aggregationInsol (firstStep rows (dayNs / 2)) dayNs =
      [(0, .fin (7/3)), (dayNs, .nan), (2 * dayNs, .nan), (3 * dayNs, .fin 3)] := by
  decide +kernel

/-- **C128 (whole periods, needed).** When the coarse period is not made of whole fine ones, the two
steps differ from the single one. -/
theorem C128_two_steps_uneven_refuted :
    ∃ (rows : List InsolRow) (f1 f2 : Int), 0 < f1 ∧ 0 < f2 ∧
      (∀ r ∈ rows, ∀ w, r.insol = some w → 0 ≤ w) ∧
      aggregationInsol (firstStep rows f1) f2 ≠ aggregationInsol rows f2 := by
  refine ⟨[⟨0, some 1, some 1⟩, ⟨3, some 1, some 2⟩], 2, 3, by decide, by decide, ?_, by decide +kernel⟩
  intro r hr w hw
  simp only [List.mem_cons, List.not_mem_nil, or_false] at hr
  rcases hr with rfl | rfl <;> simp at hw <;> rw [← hw] <;> norm_num

/-- **C128 (units).** Neither the unit of the insolation nor, up to the same factor, the unit of the
energy matters. -/
theorem C128_units {rows : List InsolRow} {freq : Int} {a b : ℚ} (ha : a ≠ 0) (hf : 0 < freq)
    {L : Int} {v : ℚ} (h : (L, Flt.fin v) ∈ aggregationInsol rows freq) :
    (L, Flt.fin (b * v)) ∈ aggregationInsol
      (rows.map fun r => ⟨r.t, r.insol.map (a * ·), r.energy.map (b * ·)⟩) freq := by
  set rows' : List InsolRow := rows.map fun r => ⟨r.t, r.insol.map (a * ·), r.energy.map (b * ·)⟩ with hr'
  have hlabs : (aggregationInsol rows' freq).map Prod.fst = (aggregationInsol rows freq).map Prod.fst := by
    cases rows with
    | nil => rfl
    | cons r rest => simp [hr', aggregationInsol, Function.comp_def]
  have hL : L ∈ (aggregationInsol rows' freq).map Prod.fst := by
    rw [hlabs]; exact List.mem_map.mpr ⟨_, h, rfl⟩
  obtain ⟨⟨L', w⟩, hw, hE⟩ := List.mem_map.mp hL
  simp only at hE
  subst hE
  have v1 := mem_agg_value hf h
  have v2 := mem_agg_value hf hw
  have hp : inPeriod rows' L' freq = (inPeriod rows L' freq).map
      fun r => ⟨r.t, r.insol.map (a * ·), r.energy.map (b * ·)⟩ := by
    unfold inPeriod
    rw [hr', List.filter_map]
    rfl
  have hs : ∀ l : List InsolRow,
      ((l.map fun r => (⟨r.t, r.insol.map (a * ·), r.energy.map (b * ·)⟩ : InsolRow)).map rowNum).sum =
        a * b * (l.map rowNum).sum ∧
      ((l.map fun r => (⟨r.t, r.insol.map (a * ·), r.energy.map (b * ·)⟩ : InsolRow)).map rowDen).sum =
        a * (l.map rowDen).sum := by
    intro l
    induction l with
    | nil => simp
    | cons r l ih =>
      simp only [List.map_cons, List.sum_cons, ih.1, ih.2]
      rcases r with ⟨t, _ | x, _ | y⟩ <;> simp [rowNum, rowDen, cellOp] <;> (try constructor) <;> ring
  rw [hp, (hs _).1, (hs _).2] at v2
  have hden : ((inPeriod rows L' freq).map rowDen).sum ≠ 0 := by
    intro hz
    rw [hz] at v1
    simp only [Flt.ofDiv, if_true] at v1
    split_ifs at v1
  simp only [Flt.ofDiv, hden, if_false, Flt.fin.injEq] at v1
  simp only [Flt.ofDiv, mul_eq_zero, ha, hden, or_self, if_false] at v2
  have : w = Flt.fin (b * v) := by
    rw [v2, v1]
    congr 1
    field_simp
  rw [← this]
  exact hw

example : (0, Flt.fin (10 * 2)) ∈ aggregationInsol
    (exBins.map fun r => ⟨r.t, r.insol.map ((1/1000 : ℚ) * ·), r.energy.map ((10 : ℚ) * ·)⟩) dayNs :=
  C128_units (by norm_num) (by decide) (by decide +kernel)

end Verif
