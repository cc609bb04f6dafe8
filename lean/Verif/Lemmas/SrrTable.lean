import Verif.Lemmas.SrrDaily

/-! # Lemmas about the interval table of the SRR analysis -/

namespace Verif

/-- facts shared by all lists of daily rows that `calcDailyDf` can produce -/
structure DailyRows (rows : List SrrRow) : Prop where
  day : ∀ i (h : i < rows.length), rows[i].day = i
  step : ∀ i (h : i + 1 < rows.length), rows[i + 1].t = rows[i].t + dayNs
  run0 : ∀ h : 0 < rows.length, rows[0].run = if rows[0].event then 1 else 0
  run1 : ∀ i (h : i + 1 < rows.length),
    rows[i + 1].run = rows[i].run + if rows[i + 1].event then 1 else 0

theorem DailyRows.t_eq {rows : List SrrRow} (H : DailyRows rows) {i : Nat} (hi : i < rows.length) :
    rows[i].t = rows[0].t + i * dayNs := by
  induction i with
  | zero => simp
  | succ i ih =>
    rw [H.step i hi, ih (by omega)]
    push_cast; ring

theorem dayNs_pos' : 0 < dayNs := by decide

theorem DailyRows.t_lt {rows : List SrrRow} (H : DailyRows rows) {i j : Nat} (hi : i < rows.length)
    (hj : j < rows.length) : rows[i].t < rows[j].t ↔ i < j := by
  rw [H.t_eq hi, H.t_eq hj]
  have := dayNs_pos'
  constructor
  · intro h
    have h2 : (i : Int) * dayNs < j * dayNs := by omega
    have := lt_of_mul_lt_mul_right h2 this.le
    omega
  · intro h
    have h2 : (i : Int) * dayNs < j * dayNs := mul_lt_mul_of_pos_right (by omega) this
    omega

theorem DailyRows.t_inj {rows : List SrrRow} (H : DailyRows rows) {i j : Nat} (hi : i < rows.length)
    (hj : j < rows.length) (h : rows[i].t = rows[j].t) : i = j := by
  rcases lt_trichotomy i j with h' | h' | h'
  · have := (H.t_lt hi hj).mpr h'; omega
  · exact h'
  · have := (H.t_lt hj hi).mpr h'; omega

theorem DailyRows.run_mono {rows : List SrrRow} (H : DailyRows rows) {i j : Nat} (hij : i ≤ j)
    (hj : j < rows.length) : rows[i].run ≤ rows[j].run := by
  induction j with
  | zero => obtain rfl : i = 0 := by omega
            exact le_refl _
  | succ j ih =>
    rcases Nat.lt_or_eq_of_le hij with h | h
    · have := ih (by omega) (by omega)
      rw [H.run1 j hj]
      omega
    · subst h; exact le_refl _

theorem DailyRows.mono_mem {rows : List SrrRow} (H : DailyRows rows) {d e : SrrRow} (hd : d ∈ rows)
    (he : e ∈ rows) (h : d.t ≤ e.t) : d.run ≤ e.run := by
  obtain ⟨i, hi, rfl⟩ := List.getElem_of_mem hd
  obtain ⟨j, hj, rfl⟩ := List.getElem_of_mem he
  have : ¬ j < i := by
    intro hlt
    have := (H.t_lt hj hi).mpr hlt
    omega
  exact H.run_mono (by omega) hj

theorem DailyRows.eq_of_t {rows : List SrrRow} (H : DailyRows rows) {d e : SrrRow} (hd : d ∈ rows)
    (he : e ∈ rows) (h : d.t = e.t) : d = e := by
  obtain ⟨i, hi, rfl⟩ := List.getElem_of_mem hd
  obtain ⟨j, hj, rfl⟩ := List.getElem_of_mem he
  obtain rfl := H.t_inj hi hj h
  rfl

theorem DailyRows.sorted {rows : List SrrRow} (H : DailyRows rows) :
    rows.Pairwise fun d e => d.t < e.t := by
  rw [List.pairwise_iff_getElem]
  intro i j hi hj hij
  exact (H.t_lt hi hj).mpr hij

theorem DailyRows.day_lt {rows : List SrrRow} (H : DailyRows rows) {d e : SrrRow} (hd : d ∈ rows)
    (he : e ∈ rows) : d.t < e.t ↔ d.day < e.day := by
  obtain ⟨i, hi, rfl⟩ := List.getElem_of_mem hd
  obtain ⟨j, hj, rfl⟩ := List.getElem_of_mem he
  rw [H.t_lt hi hj, H.day i hi, H.day j hj]

theorem DailyRows.t_day {rows : List SrrRow} (H : DailyRows rows) {d e : SrrRow} (hd : d ∈ rows)
    (he : e ∈ rows) : d.t - e.t = ((d.day : Int) - e.day) * dayNs := by
  obtain ⟨i, hi, rfl⟩ := List.getElem_of_mem hd
  obtain ⟨j, hj, rfl⟩ := List.getElem_of_mem he
  rw [H.t_eq hi, H.t_eq hj, H.day i hi, H.day j hj]; ring

/-- the interval of one run: first and last of its rows -/
theorem intervalOf_some {zs : List (ℚ × ℚ) → ℚ} {minLen : Nat} {rows : List SrrRow} {r : Nat}
    {i : Interval} (h : intervalOf zs minLen rows r = some i) :
    ∃ a z, a ∈ rows ∧ z ∈ rows ∧ a.run = r ∧ z.run = r ∧
      i = mkInterval zs minLen a z (rows.filter fun d => decide (d.run = r)) ∧
      (rows.filter fun d => decide (d.run = r)).head? = some a ∧
      (rows.filter fun d => decide (d.run = r)).getLast? = some z := by
  unfold intervalOf at h
  simp only at h
  cases hg : (rows.filter fun d => decide (d.run = r)) with
  | nil => rw [hg] at h; simp at h
  | cons a l =>
    rw [hg] at h
    simp only [Option.some.injEq] at h
    have ha : a ∈ rows.filter fun d => decide (d.run = r) := by rw [hg]; simp
    have hz : (a :: l).getLast (by simp) ∈ rows.filter fun d => decide (d.run = r) := by
      rw [hg]; exact List.getLast_mem _
    rw [List.mem_filter, decide_eq_true_eq] at ha hz
    exact ⟨a, (a :: l).getLast (by simp), ha.1, hz.1, ha.2, hz.2, h.symm, rfl,
      List.getLast?_eq_some_getLast _⟩

theorem intervalOf_isSome {zs : List (ℚ × ℚ) → ℚ} {minLen : Nat} {rows : List SrrRow} {d : SrrRow}
    (h : d ∈ rows) : ∃ i, intervalOf zs minLen rows d.run = some i := by
  unfold intervalOf
  have hd : d ∈ rows.filter fun e => decide (e.run = d.run) := by simp [h]
  cases hg : (rows.filter fun e => decide (e.run = d.run)) with
  | nil => rw [hg] at hd; simp at hd
  | cons a l => exact ⟨_, rfl⟩

theorem mkInterval_fields (zs : List (ℚ × ℚ) → ℚ) (minLen : Nat) (a z : SrrRow) (g : List SrrRow) :
    (mkInterval zs minLen a z g).start = a.t ∧ (mkInterval zs minLen a z g).stop = z.t ∧
    (mkInterval zs minLen a z g).run = a.run ∧
    (mkInterval zs minLen a z g).length = (z.day : Int) - a.day := by
  unfold mkInterval
  simp only
  split_ifs <;> exact ⟨rfl, rfl, rfl, rfl⟩

theorem exclude_fields (o : ResultOpts) (i : Interval) :
    (exclude o i).start = i.start ∧ (exclude o i).stop = i.stop ∧ (exclude o i).run = i.run ∧
    (exclude o i).length = i.length := by
  unfold exclude
  split_ifs <;> exact ⟨rfl, rfl, rfl, rfl⟩

theorem withRecovery_map {α : Type} (f : Interval → α)
    (hf : ∀ (i : Interval) (x y : Cell), f { i with next := x, recovery := y } = f i) (l : List Interval) :
    (withRecovery l).map f = l.map f := by
  induction l with
  | nil => rfl
  | cons i l ih =>
    rw [withRecovery]
    simp only [List.map_cons, ih, hf]

theorem mem_runList {rows : List SrrRow} {r : Nat} :
    r ∈ runList false rows ↔ ∃ d ∈ rows, d.run = r := by
  unfold runList
  simp [List.mem_insertionSort]

theorem runList_sorted (trim : Bool) (rows : List SrrRow) : (runList trim rows).Pairwise (· < ·) := by
  have h : ((rows.map SrrRow.run).dedup.insertionSort (· ≤ ·)).Pairwise (· < ·) := by
    have h1 := List.pairwise_insertionSort (· ≤ ·) (rows.map SrrRow.run).dedup
    have h2 : ((rows.map SrrRow.run).dedup.insertionSort (· ≤ ·)).Nodup :=
      (List.perm_insertionSort _ _).nodup_iff.mpr (List.nodup_dedup _)
    exact (h1.and h2).imp fun h => lt_of_le_of_ne h.1 h.2
  unfold runList
  cases trim
  · exact h
  · exact (h.sublist (List.drop_sublist 1 _)).sublist (List.dropLast_sublist _)

theorem mem_runList_of_trim {trim : Bool} {rows : List SrrRow} {r : Nat} (h : r ∈ runList trim rows) :
    ∃ d ∈ rows, d.run = r := by
  apply mem_runList.mp
  cases trim
  · exact h
  · exact (List.drop_sublist 1 _).subset ((List.dropLast_sublist _).subset h)

/-- members of the table come from the runs -/
theorem mem_table {zs : List (ℚ × ℚ) → ℚ} {o : ResultOpts} {rows : List SrrRow} {i : Interval}
    (h : i ∈ intervalTable zs o rows) :
    ∃ r ∈ runList o.trim rows, ∃ i0, intervalOf zs o.minIntervalLength rows r = some i0 ∧
      ∃ x y, i = { exclude o i0 with next := x, recovery := y } := by
  unfold intervalTable at h
  generalize hL : ((runList o.trim rows).filterMap (intervalOf zs o.minIntervalLength rows)).map
    (exclude o) = L at h
  have key : ∀ (L : List Interval) (i : Interval), i ∈ withRecovery L →
      ∃ j ∈ L, ∃ x y, i = { j with next := x, recovery := y } := by
    intro L
    induction L with
    | nil => intro i h; simp [withRecovery] at h
    | cons j l ih =>
      intro i h
      rw [withRecovery, List.mem_cons] at h
      rcases h with h | h
      · exact ⟨j, by simp, _, _, h⟩
      · obtain ⟨k, hk, x, y, e⟩ := ih i h
        exact ⟨k, by simp [hk], x, y, e⟩
  obtain ⟨j, hj, x, y, e⟩ := key L i h
  rw [← hL, List.mem_map] at hj
  obtain ⟨i0, hi0, rfl⟩ := hj
  rw [List.mem_filterMap] at hi0
  obtain ⟨r, hr, hi0⟩ := hi0
  exact ⟨r, hr, i0, hi0, x, y, e⟩

theorem table_runs {zs : List (ℚ × ℚ) → ℚ} {o : ResultOpts} {rows : List SrrRow} :
    (intervalTable zs o rows).map Interval.run = runList o.trim rows := by
  unfold intervalTable
  rw [withRecovery_map Interval.run (fun _ _ _ => rfl), List.map_map]
  have h1 : (Interval.run ∘ exclude o) = Interval.run := by
    funext i; exact (exclude_fields o i).2.2.1
  rw [h1]
  have key : ∀ L : List Nat, (∀ r ∈ L, ∃ d ∈ rows, d.run = r) →
      (L.filterMap (intervalOf zs o.minIntervalLength rows)).map Interval.run = L := by
    intro L
    induction L with
    | nil => intro _; rfl
    | cons r l ih =>
      intro h
      obtain ⟨d, hd, hr⟩ := h r (by simp)
      obtain ⟨i, hi⟩ := intervalOf_isSome (zs := zs) (minLen := o.minIntervalLength) hd
      rw [hr] at hi
      rw [List.filterMap_cons, hi]
      simp only [List.map_cons]
      rw [ih fun r' hr' => h r' (by simp [hr'])]
      obtain ⟨a, z, ha, hz, har, hzr, e, -, -⟩ := intervalOf_some hi
      rw [e, (mkInterval_fields _ _ _ _ _).2.2.1, har]
  exact key _ fun r hr => mem_runList_of_trim hr

/-- an interval of the table: its run, first and last rows -/
theorem table_bounds {zs : List (ℚ × ℚ) → ℚ} {o : ResultOpts} {rows : List SrrRow} {i : Interval}
    (h : i ∈ intervalTable zs o rows) :
    ∃ a z, a ∈ rows ∧ z ∈ rows ∧ a.run = i.run ∧ z.run = i.run ∧ i.start = a.t ∧ i.stop = z.t ∧
      i.length = (z.day : Int) - a.day ∧
      (rows.filter fun d => decide (d.run = i.run)).head? = some a ∧
      (rows.filter fun d => decide (d.run = i.run)).getLast? = some z := by
  obtain ⟨r, hr, i0, hi0, x, y, e⟩ := mem_table h
  obtain ⟨a, z, ha, hz, har, hzr, e0, hh, hl⟩ := intervalOf_some hi0
  obtain ⟨m1, m2, m3, m4⟩ := mkInterval_fields zs o.minIntervalLength a z
    (rows.filter fun d => decide (d.run = r))
  obtain ⟨x1, x2, x3, x4⟩ := exclude_fields o i0
  have hrun : i.run = r := by rw [show i.run = (exclude o i0).run by rw [e], x3, e0, m3, har]
  refine ⟨a, z, ha, hz, by rw [har, hrun], by rw [hzr, hrun], ?_, ?_, ?_, by rw [hrun]; exact hh,
    by rw [hrun]; exact hl⟩
  · rw [show i.start = (exclude o i0).start by rw [e], x1, e0, m1]
  · rw [show i.stop = (exclude o i0).stop by rw [e], x2, e0, m2]
  · rw [show i.length = (exclude o i0).length by rw [e], x4, e0, m4]

theorem pairwise_head? {l : List SrrRow} (h : l.Pairwise fun d e => d.t < e.t) {a d : SrrRow}
    (ha : l.head? = some a) (hd : d ∈ l) : a.t ≤ d.t := by
  cases l with
  | nil => simp at hd
  | cons b l =>
    simp only [List.head?_cons, Option.some.injEq] at ha
    subst ha
    rcases List.mem_cons.mp hd with rfl | hd
    · exact le_refl _
    · exact (List.rel_of_pairwise_cons h hd).le

theorem pairwise_getLast? {l : List SrrRow} (h : l.Pairwise fun d e => d.t < e.t) {z d : SrrRow}
    (hz : l.getLast? = some z) (hd : d ∈ l) : d.t ≤ z.t := by
  obtain ⟨ys, rfl⟩ := List.getLast?_eq_some_iff.mp hz
  rw [List.pairwise_append] at h
  rcases List.mem_append.mp hd with hd | hd
  · exact (h.2.2 d hd z (by simp)).le
  · simp only [List.mem_singleton] at hd
    subst hd; exact le_refl _

/-- an interval of the table covers exactly the days of its run -/
theorem table_covers {zs : List (ℚ × ℚ) → ℚ} {o : ResultOpts} {rows : List SrrRow} (H : DailyRows rows)
    {i : Interval} (h : i ∈ intervalTable zs o rows) {d : SrrRow} (hd : d ∈ rows) :
    (i.start ≤ d.t ∧ d.t ≤ i.stop) ↔ d.run = i.run := by
  obtain ⟨a, z, ha, hz, har, hzr, h1, h2, h3, hh, hl⟩ := table_bounds h
  have hs : (rows.filter fun d => decide (d.run = i.run)).Pairwise fun d e => d.t < e.t :=
    H.sorted.sublist List.filter_sublist
  constructor
  · rintro ⟨g1, g2⟩
    rw [h1] at g1
    rw [h2] at g2
    have := H.mono_mem ha hd g1
    have := H.mono_mem hd hz g2
    omega
  · intro hr
    have hm : d ∈ rows.filter fun d => decide (d.run = i.run) := by simp [hd, hr]
    rw [h1, h2]
    exact ⟨pairwise_head? hs hh hm, pairwise_getLast? hs hl hm⟩

theorem table_unique {zs : List (ℚ × ℚ) → ℚ} {o : ResultOpts} {rows : List SrrRow} {i j : Interval}
    (hi : i ∈ intervalTable zs o rows) (hj : j ∈ intervalTable zs o rows) (h : i.run = j.run) : i = j := by
  have hn : ((intervalTable zs o rows).map Interval.run).Nodup := by
    rw [table_runs]
    exact (runList_sorted o.trim rows).imp fun h => h.ne
  exact List.inj_on_of_nodup_map hn hi hj h

theorem table_exists {zs : List (ℚ × ℚ) → ℚ} {o : ResultOpts} {rows : List SrrRow}
    (ht : o.trim = false) {d : SrrRow} (hd : d ∈ rows) :
    ∃ i ∈ intervalTable zs o rows, i.run = d.run := by
  have : d.run ∈ (intervalTable zs o rows).map Interval.run := by
    rw [table_runs, ht]
    exact mem_runList.mpr ⟨d, hd, rfl⟩
  rw [List.mem_map] at this
  exact this

/-- `calcDailyDf` produces daily rows -/
theorem calcDailyDf_rows {o : DailyOpts} {pm insol : Series} {precip : Option Series}
    {r : Cell × List SrrRow} (hinit : srrInit pm insol precip = .ok ())
    (h : calcDailyDf o pm insol precip = .ok r) : DailyRows r.2 ∧ r.2 ≠ [] := by
  obtain ⟨hne, hds, ev, hev, h1, h2⟩ := calcDailyDf_ok h
  generalize hdf : trimMissing (srrJoin pm insol precip) = df at *
  generalize hx : srrNorm r.1 (df.map SrrDay.pi) = x at *
  have hxl : x.length = df.length := by rw [← hx, srrNorm_length]; simp
  have hevl : ev.length = df.length := by
    have := srrCriterion_length (by simp [srrDetected, srrDelta_length, srrNorm_length]) hev
    simpa using this
  have hwl : (withOutages o.dayScale x ev).length = df.length := by
    rw [withOutages_length (by omega), hxl]
  have hdaily : dayStepped pm.index = true := by
    unfold srrInit at hinit
    split_ifs at hinit with g
    all_goals
      simp only [isDaily, Bool.not_eq_false, Bool.and_eq_true] at g
      exact g.2
  have hinf : (df.map SrrDay.t) <:+: pm.index := by
    have := (trimMissing_infix (srrJoin pm insol precip)).map SrrDay.t
    rw [hdf] at this
    have e : (srrJoin pm insol precip).map SrrDay.t = pm.index := by
      unfold srrJoin Series.index
      rw [List.map_map]
      rfl
    rwa [e] at this
  have hstep : ∀ i (h : i + 1 < df.length), df[i + 1].t = df[i].t + dayNs := by
    intro i hi
    obtain ⟨s, t, e⟩ := hinf
    have h3 := dayStepped_getElem hdaily (i := s.length + i) (by rw [← e]; simp; omega)
    have h4 : ∀ k (hk : k < df.length), (pm.index)[s.length + k]'(by rw [← e]; simp; omega) = df[k].t := by
      intro k hk
      rw [List.getElem_of_eq e.symm]
      simp only [List.append_assoc]
      rw [List.getElem_append_right (by omega)]
      rw [List.getElem_append_left (by simpa using hk)]
      simp
    rw [← h4 i (by omega), ← h4 (i + 1) hi, ← h3]
    rfl
  rw [h2]
  refine ⟨⟨?_, ?_, ?_, ?_⟩, ?_⟩
  · intro i hi
    rw [srrRows_length] at hi
    rw [srrRows_getElem hi hwl]
  · intro i hi
    rw [srrRows_length] at hi
    rw [srrRows_getElem hi hwl, srrRows_getElem (by omega) hwl]
    exact hstep i hi
  · intro hi
    rw [srrRows_length] at hi
    rw [srrRows_getElem hi hwl]
    simp only [zero_add]
    rw [List.take_one, List.head?_eq_getElem?, List.getElem?_eq_getElem (by omega)]
    cases hb : (withOutages o.dayScale x ev)[0]'(by omega) <;> simp
  · intro i hi
    rw [srrRows_length] at hi
    rw [srrRows_getElem hi hwl, srrRows_getElem (by omega) hwl]
    simp only
    rw [List.take_succ_eq_append_getElem (by omega : i + 1 < (withOutages o.dayScale x ev).length),
      List.count_append]
    cases hb : (withOutages o.dayScale x ev)[i + 1]'(by omega) <;> simp
  · intro hnil
    have := srrRows_length df x (srrDelta o.dayScale x) (withOutages o.dayScale x ev)
    rw [hnil] at this
    exact hne (List.eq_nil_of_length_eq_zero this.symm)

end Verif
