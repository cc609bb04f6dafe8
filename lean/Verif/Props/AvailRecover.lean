import Verif.Lemmas.AvailRecover

/-! # Property C121 (an analysis recovers the losses of a plant) -/

namespace Verif
open Avail Spec

/-- **C121 (sizes).** The sizes the analysis estimates are the rated powers relative to their mean. -/
theorem C121_sizes {p : Plant} {n : Nat} {t0 f : Int} {c e0 : ℚ} {i : Input} {a : Args} (hr : p.Recorded n t0 f c e0 i)
    (ho : p.Observable n) (ha : a.thresholds = none) (hs : a.sizes = none) :
    sizesOf a i = (List.range p.m).map fun j : Nat =>
      some (p.rated j / ((∑ r ∈ Finset.range p.m, p.rated r) / p.m)) := by
  rw [Recover.sizes hr ho ha hs]
  apply List.map_congr_left
  intro j _
  unfold Recover.size Recover.ratedSum
  rw [div_div_eq_mul_div]

/-- **C121 (inverters).** While anything is recorded of the inverters by daylight, the loss of a row is exactly
the power of the inverters that are not in operation, whether or not the others report. -/
theorem C121_inverters {p : Plant} {n : Nat} {t0 f : Int} {c e0 : ℚ} {i : Input} {a : Args} (hr : p.Recorded n t0 f c e0 i)
    (ho : p.Observable n) (ha : a.thresholds = none) (hs : a.sizes = none)
    (hlim : ∀ k < n, ∀ L : ℚ, a.limits.getD k none = some L → p.full k ≤ L) {k : Nat} (hk : k < n) :
    (p.Lit k → (lossSubsystem a i).loss[k]? = some (∑ j ∈ Finset.range p.m, if p.produces k j then 0 else p.rated j * p.weather k)) ∧
    (¬ p.Lit k → (lossSubsystem a i).loss[k]? = some 0) := by
  rw [Recover.loss_eq hr ho ha hs hlim, List.getElem?_map, List.getElem?_range hk, Option.map_some]
  unfold Recover.subLoss
  constructor
  · intro hl
    rw [if_pos ((Recover.lit_iff k).mpr hl), Option.some.injEq]
    unfold Plant.full Plant.delivered Plant.power
    rw [← Finset.sum_sub_distrib]
    apply Finset.sum_congr rfl
    intro j _
    split_ifs <;> ring
  · intro hl
    rw [if_neg (fun h => hl ((Recover.lit_iff k).mp h))]

/-- **C121 (calibration).** The rescaled expectation is the power of the undisturbed plant, and the errors
tabulated for it vanish. -/
theorem C121_calibration {p : Plant} {n : Nat} {t0 f : Int} {c e0 : ℚ} {i : Input} {a : Args} (hr : p.Recorded n t0 f c e0 i)
    (ho : p.Observable n) (hcmp : p.Comparable n) (hf : 0 < f) (hc : 0 < c) (ha : a.thresholds = none) (hs : a.sizes = none)
    (hlim : ∀ k < n, ∀ L : ℚ, a.limits.getD k none = some L → p.full k ≤ L)
    (hq : 0 ≤ a.qLow ∧ a.qLow ≤ 1) (hq' : 0 ≤ a.qHigh ∧ a.qHigh ≤ 1) :
    ∃ d, errorDistributions a i (lossSubsystem a i).loss = .ok d ∧
      d.powerR = (List.range n).map (fun k : Nat => some (p.full k)) ∧
      (∀ x : ℚ, interp1d d.lower x = some 0) ∧ ∀ x : ℚ, interp1d d.upper x = some 0 := by
  obtain ⟨d, h1, h2, -, h3, h4⟩ := Recover.calibrated (a := a) hr ho hcmp hf hc hq hq'
  rw [← Recover.loss_eq hr ho ha hs hlim] at h1
  exact ⟨d, h1, h2, h3, h4⟩

/-- **C121 (outages of the whole plant).** The outages listed lie in rows in which nothing is recorded of the
inverters, every such row by daylight is in one, and the loss of each is the energy the plant lacked in it;
it is called a communication outage exactly if that is nothing, and real exactly if it is something. -/
theorem C121_outages {p : Plant} {n : Nat} {t0 f : Int} {c e0 : ℚ} {i : Input} {a : Args} (hr : p.Recorded n t0 f c e0 i)
    (ho : p.Observable n) (hcmp : p.Comparable n) (hf : 0 < f) (hc : 0 < c) (ha : a.thresholds = none) (hs : a.sizes = none)
    (hlim : ∀ k < n, ∀ L : ℚ, a.limits.getD k none = some L → p.full k ≤ L)
    (hq : 0 ≤ a.qLow ∧ a.qLow ≤ 1) (hq' : 0 ≤ a.qHigh ∧ a.qHigh ≤ 1)
    (hfirst : ∃ k < n, p.Lit k ∧ ∀ r < k, p.weather r = 0) :
    ∃ d outs, errorDistributions a i (lossSubsystem a i).loss = .ok d ∧
      outageInfo i (lossSubsystem a i).mask d = .ok outs ∧
      (∀ k < n, p.Dark k → ∃ o ∈ outs, o.first ≤ k ∧ k ≤ o.last) ∧
      ∀ o ∈ outs, 0 < o.first ∧ o.first ≤ o.last ∧ o.last < n ∧ (∀ k, o.first ≤ k → k ≤ o.last → ¬ p.Lit k) ∧
        o.loss = some (p.lostEnergy f o.first o.last) ∧
        (o.type = .comms ↔ p.lostEnergy f o.first o.last = 0) ∧
        (o.type = .real ↔ 0 < p.lostEnergy f o.first o.last) := by
  obtain ⟨d, h1, h2, he, h3, h4⟩ := Recover.calibrated (a := a) hr ho hcmp hf hc hq hq'
  rw [← Recover.loss_eq hr ho ha hs hlim] at h1
  obtain ⟨outs, hout, hruns, hpw, hall⟩ := Recover.outages hr ho hf hc he h3 h4 hfirst
  refine ⟨d, outs, h1, by rw [Recover.mask_eq hr ho ha]; exact hout, fun k hk hd => ?_, fun o hoo => ?_⟩
  · have hlen : (Recover.seenRows p n).length = n := by unfold Recover.seenRows; simp
    obtain ⟨s, e, h1, h2, hrun⟩ := Recover.exists_run (Recover.dark_inOutage hr hc hk hd) hk
    obtain ⟨o, hoo, rfl, rfl⟩ := (hruns s e).mpr hrun
    exact ⟨o, hoo, h1, h2⟩
  · obtain ⟨hse, hen, hin, -⟩ := (hruns o.first o.last).mp ⟨o, hoo, rfl, rfl⟩
    obtain ⟨g1, g2, g3, g4⟩ := hall o hoo
    exact ⟨g1, hse, hen, fun k k1 k2 => Recover.inOutage_not_lit hr hc (by omega) (hin k k1 k2), g2, g3, g4⟩

/-- **C121 (the whole analysis).** If the plant never fails as a whole (where nothing is recorded of the
inverters by daylight, all of them are in operation) and such gaps last at least two rows, the analysis
succeeds, its total loss is in every row exactly what the plant lacks, and the lost production of each
period is exactly the energy lost in it. -/
theorem C121_run {p : Plant} {n : Nat} {t0 f : Int} {c e0 : ℚ} {i : Input} {a : Args} (hr : p.Recorded n t0 f c e0 i)
    (ho : p.Observable n) (hcmp : p.Comparable n) (hf : 0 < f) (hc : 0 < c) (ha : a.thresholds = none) (hs : a.sizes = none)
    (hlim : ∀ k < n, ∀ L : ℚ, a.limits.getD k none = some L → p.full k ≤ L)
    (hq : 0 ≤ a.qLow ∧ a.qLow ≤ 1) (hq' : 0 ≤ a.qHigh ∧ a.qHigh ≤ 1)
    (hfirst : ∃ k < n, p.Lit k ∧ ∀ r < k, p.weather r = 0)
    (hup : ∀ k < n, p.Dark k → ∀ j < p.m, p.produces k j = true)
    (hlong : ∀ k < n, p.Dark k → ∃ k' < n, p.Dark k' ∧ (k' = k + 1 ∨ k = k' + 1))
    {bin : Int → Int} (hb : a.bin = some bin) (o : Obj) (hi : o.input = i) :
    ∃ o' rows, run a o = (o', .ok ()) ∧
      o'.total = some ((List.range n).map fun k : Nat => some (p.lost k)) ∧
      o'.results = some rows ∧
      (∀ r ∈ rows, ∀ x : ℚ, r.lost = some x → x = p.lostIn t0 f bin n r.label) ∧
      ∀ k, 0 < k → k < n → ∃ r ∈ rows, r.label = bin (t0 + (k : Int) * f) ∧ r.lost = some (p.lostIn t0 f bin n r.label) := by
  obtain ⟨N, d, outs, sl, rfl, -, -, hrun⟩ := Recover.run_parts hr ho hcmp hf hc ha hs hlim hq hq' hfirst hup hlong hb o hi
  refine ⟨_, _, hrun, rfl, rfl, ?_, ?_⟩
  · intro r hm x hx
    unfold rollup at hm
    obtain ⟨q, -, rfl⟩ := List.mem_map.mp hm
    simp only at hx ⊢
    split_ifs at hx with hmine
    rw [Option.some.injEq] at hx
    rw [← hx, Recover.lostIn_eq]
  · intro k hk0 hk
    have hmemk : ((t0 + (k : Int) * f, some (p.lost k * f / nsPerHour)) : Int × Cell) ∈
        regular (t0 + f) f (N + 1) (fun k => some (p.lost (k + 1) * f / nsPerHour)) := by
      unfold regular
      refine List.mem_map.mpr ⟨k - 1, List.mem_range.mpr (by omega), ?_⟩
      simp only
      rw [show k - 1 + 1 = k by omega, show t0 + f + ((k - 1 : Nat) : Int) * f = t0 + (((k - 1 : Nat) : Int) + 1) * f by ring,
        show (((k - 1 : Nat) : Int) + 1) = (k : Int) by omega]
    have hlab : bin (t0 + (k : Int) * f) ∈ (((i.index.zip sl.corrected).map Prod.fst ++
        (regular (t0 + f) f (N + 1) (fun k => some (p.lost (k + 1) * f / nsPerHour))).map Prod.fst).map bin).dedup.insertionSort (· ≤ ·) := by
      rw [List.mem_insertionSort, List.mem_dedup]
      exact List.mem_map_of_mem (List.mem_append_right _ (List.mem_map_of_mem (f := Prod.fst) hmemk))
    refine ⟨_, List.mem_map_of_mem hlab, rfl, ?_⟩
    simp only
    rw [if_neg, Recover.lostIn_eq]
    exact List.ne_nil_of_mem (List.mem_filter.mpr ⟨hmemk, by simp⟩)

/-- **C121 (production).** Of such a plant, for a period whose first and last rows are recorded, the actual
production is exactly the energy delivered from its first row to its last, and the availability of the period is
the share of that energy in itself and the energy lost in the period. -/
theorem C121_production {p : Plant} {n : Nat} {t0 f : Int} {c e0 : ℚ} {i : Input} {a : Args} (hr : p.Recorded n t0 f c e0 i)
    (ho : p.Observable n) (hcmp : p.Comparable n) (hf : 0 < f) (hc : 0 < c) (ha : a.thresholds = none) (hs : a.sizes = none)
    (hlim : ∀ k < n, ∀ L : ℚ, a.limits.getD k none = some L → p.full k ≤ L)
    (hq : 0 ≤ a.qLow ∧ a.qLow ≤ 1) (hq' : 0 ≤ a.qHigh ∧ a.qHigh ≤ 1)
    (hfirst : ∃ k < n, p.Lit k ∧ ∀ r < k, p.weather r = 0)
    (hup : ∀ k < n, p.Dark k → ∀ j < p.m, p.produces k j = true)
    (hlong : ∀ k < n, p.Dark k → ∃ k' < n, p.Dark k' ∧ (k' = k + 1 ∨ k = k' + 1))
    {bin : Int → Int} (hb : a.bin = some bin) (o : Obj) (hi : o.input = i) {q : Int} {k1 k2 : Nat}
    (h2 : k2 < n) (h12 : k1 < k2) (hb1 : bin (t0 + (k1 : Int) * f) = q) (hb2 : bin (t0 + (k2 : Int) * f) = q)
    (hall : ∀ k < n, bin (t0 + (k : Int) * f) = q → k1 ≤ k ∧ k ≤ k2) (hl1 : p.Lit k1) (hl2 : p.Lit k2) :
    ∃ o' rows, run a o = (o', .ok ()) ∧ o'.results = some rows ∧ ∃ r ∈ rows, r.label = q ∧
      r.actual = some (∑ k ∈ Finset.range (k2 - k1), p.delivered (k1 + 1 + k) * f / nsPerHour) ∧
      r.lost = some (p.lostIn t0 f bin n q) ∧ r.availability = .fin
        ((∑ k ∈ Finset.range (k2 - k1), p.delivered (k1 + 1 + k) * f / nsPerHour) /
          ((∑ k ∈ Finset.range (k2 - k1), p.delivered (k1 + 1 + k) * f / nsPerHour) + p.lostIn t0 f bin n q)) := by
  obtain ⟨N, d, outs, sl, hN, hlen, hcor, hrun⟩ := Recover.run_parts hr ho hcmp hf hc ha hs hlim hq hq' hfirst hup hlong hb o hi
  obtain ⟨o', rows, hrun', -, hres, hlost, hex⟩ := C121_run hr ho hcmp hf hc ha hs hlim hq hq' hfirst hup hlong hb o hi
  obtain ⟨r, hm, hlab, hrl⟩ := hex k2 (by omega) h2
  rw [hb2] at hlab
  rw [hlab] at hrl
  have hf' : (0 : ℚ) < f := by exact_mod_cast hf
  have hnn : (0 : ℚ) < nsPerHour := by norm_num [nsPerHour]
  have hrows : rows = rollup bin (i.index.zip sl.corrected) (regular (t0 + f) f (N + 1) (fun k => some (p.lost (k + 1) * f / nsPerHour))) := by
    rw [hrun'] at hrun
    have := congrArg (fun x => x.1.results) hrun
    simp only [hres, Option.some.injEq] at this
    exact this
  have hdel : ∀ m k : Nat, p.counter e0 f (k + m) - p.counter e0 f k = ∑ r ∈ Finset.range m, p.delivered (k + 1 + r) * f / nsPerHour := by
    intro m k
    unfold Plant.counter
    rw [Finset.sum_range_add, add_sub_add_left_eq_sub, add_sub_cancel_left]
    exact Finset.sum_congr rfl fun x _ => by rw [show k + x + 1 = k + 1 + x by omega]
  have hact : r.actual = some (∑ k ∈ Finset.range (k2 - k1), p.delivered (k1 + 1 + k) * f / nsPerHour) := by
    have hm' := hm
    rw [hrows] at hm'
    unfold rollup at hm'
    obtain ⟨q', -, rfl⟩ := List.mem_map.mp hm'
    simp only at hlab ⊢
    subst hlab
    obtain ⟨g1, g2⟩ := Recover.period_readings hr.index hlen (by omega) h2 hb1 hb2 hall (hcor k1 (by omega) hl1) (hcor k2 h2 hl2)
    rw [g1, g2, ← hdel (k2 - k1) k1, show k1 + (k2 - k1) = k2 by omega]
    rfl
  refine ⟨o', rows, hrun', hres, r, hm, hlab, hact, hrl, ?_⟩
  have hpos : 0 < ∑ k ∈ Finset.range (k2 - k1), p.delivered (k1 + 1 + k) * f / nsPerHour := by
    have hterm : 0 < p.delivered (k1 + 1 + (k2 - k1 - 1)) * f / nsPerHour := by
      rw [show k1 + 1 + (k2 - k1 - 1) = k2 by omega]
      have := Recover.delivered_pos ho h2 hl2
      positivity
    refine lt_of_lt_of_le hterm (Finset.single_le_sum (f := fun k => p.delivered (k1 + 1 + k) * f / nsPerHour) (fun r hr => ?_)
      (Finset.mem_range.mpr (by omega)))
    have hr := Finset.mem_range.mp hr
    have := Recover.delivered_nonneg ho (k := k1 + 1 + r) (by omega)
    positivity
  have hlp : 0 ≤ p.lostIn t0 f bin n q := by
    unfold Plant.lostIn
    apply Finset.sum_nonneg
    intro k hk
    have hk := Finset.mem_range.mp hk
    split_ifs
    · have : 0 ≤ p.lost k := by unfold Plant.lost; linarith [Recover.delivered_le_full ho hk]
      positivity
    · exact le_rfl
  obtain ⟨v, hv, hv', -⟩ := C50_range hrun' hres hm hrl hact hlp hpos.le (by linarith)
  rw [hv, hv', add_comm (p.lostIn t0 f bin n q)]

/-! ## a concrete plant -/

/-- two inverters over twelve hours: the second one stands still in row 4 and does not report in row 5;
nothing arrives in rows 6 and 7, where the plant is in operation (`up`) or not -/
def exPlant (up : Bool) : Plant :=
  { m := 2
    rated := fun j => if j = 0 then 1 else 3
    weather := fun k => ([0, 10, 20, 30, 40, 50, 40, 30, 20, 10, 5, 0] : List ℚ).getD k 0
    produces := fun k j => if k = 4 then j == 0 else if k = 6 ∨ k = 7 then up else true
    reports := fun k j => if k = 5 then j == 0 else !(k == 6 || k == 7) }

/-- its records; the expectation is off by a factor -/
def exRecords (up : Bool) : Input :=
  { index := (List.range 12).map fun k : Nat => 0 + (k : Int) * 3600000000000
    freq := none
    system := (List.range 12).map fun k : Nat => if Recover.lit (exPlant up) k then some ((exPlant up).delivered k) else none
    ncols := 2
    subs := (List.range 12).map fun k : Nat => (List.range 2).map fun j : Nat =>
      if (exPlant up).reports k j then some ((exPlant up).power k j) else none
    cum := (List.range 12).map fun k : Nat => some ((exPlant up).counter 1000 3600000000000 k)
    expected := (List.range 12).map fun k : Nat => some (7 * (exPlant up).weather k) }

theorem exPlant_recorded (up : Bool) : (exPlant up).Recorded 12 0 3600000000000 7 1000 (exRecords up) where
  index := rfl
  ncols := rfl
  subs := rfl
  expected := rfl
  cum := rfl
  systemLength := by simp [exRecords]
  meter := by
    intro k hk hl
    unfold exRecords
    simp only
    rw [List.getElem?_map, List.getElem?_range hk, Option.map_some, if_pos ((Recover.lit_iff k).mpr hl)]
  noMeter := by
    intro k hk hl x hx
    unfold exRecords at hx
    simp only at hx
    rw [List.getElem?_map, List.getElem?_range hk, Option.map_some, if_neg (fun h => hl ((Recover.lit_iff k).mp h))] at hx
    simp at hx

theorem exPlant_observable (up : Bool) : (exPlant up).Observable 12 := by
  cases up
  · exact ⟨by decide, by decide +kernel, by decide +kernel, by decide +kernel, by decide +kernel⟩
  · exact ⟨by decide, by decide +kernel, by decide +kernel, by decide +kernel, by decide +kernel⟩

theorem exPlant_comparable (up : Bool) : (exPlant up).Comparable 12 := by
  cases up
  · exact ⟨by decide +kernel, 1, by decide, by decide +kernel, by decide +kernel, by decide +kernel⟩
  · exact ⟨by decide +kernel, 1, by decide, by decide +kernel, by decide +kernel, by decide +kernel⟩

/-- default arguments with halves of the day as periods -/
def exPlantArgs : Args :=
  { thresholds := none, sizes := none, limits := [], qLow := 1 / 40, qHigh := 39 / 40, bin := some (· / 21600000000000) }

theorem exPlant_lit (up : Bool) (k : Nat) : (exPlant up).Lit k ↔ Recover.lit (exPlant up) k = true := (Recover.lit_iff k).symm

-- the hypotheses of the theorems hold of the plant with and without a failure in rows 6 and 7
example (up : Bool) : (∃ k < 12, (exPlant up).Lit k ∧ ∀ r < k, (exPlant up).weather r = 0) ∧
    (∀ k < 12, ∀ L : ℚ, exPlantArgs.limits.getD k none = some L → (exPlant up).full k ≤ L) := by
  refine ⟨⟨1, by decide, ?_, ?_⟩, ?_⟩
  · rw [exPlant_lit]; cases up <;> decide +kernel
  · intro r hr
    rw [show r = 0 by omega]
    rfl
  · intro k _ L h
    simp [exPlantArgs] at h

theorem exPlant_dark (up : Bool) {k : Nat} (hk : k < 12) (h : (exPlant up).Dark k) : k = 6 ∨ k = 7 := by
  have h2 : Recover.lit (exPlant up) k = false := by
    have := h.2
    rw [exPlant_lit] at this
    simpa using this
  have h1 := h.1
  have key : ∀ k < 12, decide (0 < (exPlant up).weather k) = true → Recover.lit (exPlant up) k = false → k = 6 ∨ k = 7 := by
    cases up <;> decide +kernel
  exact key k hk (decide_eq_true h1) h2

example : (∀ k < 12, (exPlant true).Dark k → ∀ j < (exPlant true).m, (exPlant true).produces k j = true) ∧
    (∀ k < 12, (exPlant true).Dark k → ∃ k' < 12, (exPlant true).Dark k' ∧ (k' = k + 1 ∨ k = k' + 1)) := by
  have hd : ∀ k, (k = 6 ∨ k = 7) → (exPlant true).Dark k := by
    intro k hk
    refine ⟨?_, ?_⟩
    · rcases hk with rfl | rfl <;> decide +kernel
    · rw [exPlant_lit]
      rcases hk with rfl | rfl <;> decide +kernel
  constructor
  · intro k hk h j _
    rcases exPlant_dark true hk h with rfl | rfl <;> rfl
  · intro k hk h
    rcases exPlant_dark true hk h with rfl | rfl
    · exact ⟨7, by decide, hd 7 (Or.inr rfl), Or.inl rfl⟩
    · exact ⟨6, by decide, hd 6 (Or.inl rfl), Or.inr rfl⟩

-- the second inverter, three quarters of the plant, lacks 120 in row 4; nothing else is lost
example : (run exPlantArgs ⟨exRecords true, none, none, none, none, none, none⟩).1.results.map (·.map fun r => (r.label, r.lost)) =
    some [(0, some 120), (1, some 0)] := by decide +kernel
-- the period of rows 0–5 begins unrecorded (night); with periods of ten hours counted from row 1, rows 1–10 are a
-- period that begins and ends recorded, where 120 of 980 are lost
example : (run { exPlantArgs with bin := some (fun t => (t - 3600000000000) / 36000000000000) }
    ⟨exRecords true, none, none, none, none, none, none⟩).1.results.map (·.map fun r => (r.label, r.lost, r.actual, r.availability)) =
    some [(-1, none, some 0, .nan), (0, some 120, some 860, .fin (43 / 49)), (1, some 0, some 0, .nan)] := by decide +kernel
-- with a failure of the whole plant in rows 6 and 7
example : (run exPlantArgs ⟨exRecords false, none, none, none, none, none, none⟩).1.outages.map
    (·.map fun o => (o.first, o.last, decide (o.type = .real), o.loss)) = some [(6, 7, true, some 280)] := by decide +kernel

end Verif
