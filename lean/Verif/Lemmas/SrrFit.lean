import Verif.Lemmas.SrrTable

/-! # Lemmas about the Theil–Sen fits and the validity of soiling intervals -/

namespace Verif

theorem roundHE_ge (q : ℚ) : q - 1 / 2 ≤ roundHE q := by
  have h1 := Int.lt_floor_add_one q
  unfold roundHE
  simp only
  split_ifs <;> push_cast <;> linarith

theorem roundHE_le (q : ℚ) : (roundHE q : ℚ) ≤ q + 1 / 2 := by
  have h1 := Int.floor_le q
  unfold roundHE
  simp only
  split_ifs <;> push_cast <;> linarith

theorem roundHE_int (n : Int) : roundHE n = n := by
  unfold roundHE
  simp

theorem quantileSorted_le_getD {l : List ℚ} (hl : l.Pairwise (· ≤ ·)) (hne : 0 < l.length)
    {q : ℚ} (h0 : 0 ≤ q) (h1 : q ≤ 1) {j : Nat} (hj : j < l.length)
    (hq : q * ((l.length : ℚ) - 1) ≤ j) : quantileSorted l q ≤ l.getD j 0 := by
  obtain ⟨a1, a2, a3, a4⟩ := quantile_index hne h0 h1
  have hb := quantileSorted_between hl hne h0 h1
  generalize hk : ⌊q * ((l.length : ℚ) - 1)⌋.toNat = k at *
  have hkj : k ≤ j := by
    have : (k : ℚ) ≤ j := le_trans a1 hq
    exact_mod_cast this
  rcases Nat.lt_or_eq_of_le hkj with h | h
  · exact hb.2.trans (getD_mono hl (by omega) hj)
  · subst h
    unfold quantileSorted
    simp only
    rw [hk]
    have : q * ((l.length : ℚ) - 1) - k = 0 := by linarith
    rw [this]; simp

theorem getD_le_quantileSorted {l : List ℚ} (hl : l.Pairwise (· ≤ ·)) (hne : 0 < l.length)
    {q : ℚ} (h0 : 0 ≤ q) (h1 : q ≤ 1) {j : Nat}
    (hq : (j : ℚ) ≤ q * ((l.length : ℚ) - 1)) : l.getD j 0 ≤ quantileSorted l q := by
  obtain ⟨a1, a2, a3, a4⟩ := quantile_index hne h0 h1
  have hb := quantileSorted_between hl hne h0 h1
  generalize hk : ⌊q * ((l.length : ℚ) - 1)⌋.toNat = k at *
  have hkj : j ≤ k := by
    have : (j : ℚ) < k + 1 := lt_of_le_of_lt hq a2
    have : j < k + 1 := by exact_mod_cast this
    omega
  exact (getD_mono hl hkj a3).trans hb.1

theorem theil_bounds {zs : List (ℚ × ℚ) → ℚ} (hz : ∀ p, 0 ≤ zs p) (pts : List (ℚ × ℚ)) :
    (theil zs pts).low ≤ (theil zs pts).slope ∧ (theil zs pts).slope ≤ (theil zs pts).high := by
  unfold theil
  simp only
  split_ifs with hs
  · exact ⟨le_refl _, le_refl _⟩
  · have hne : pairSlopes pts ≠ [] := by
      intro e; rw [e] at hs; exact hs rfl
    have hlen := sortQ_length_pos hne
    have hsl : (median (pairSlopes pts)).getD 0 = quantileSorted (sortQ (pairSlopes pts)) (1 / 2) := by
      unfold median
      rw [quantile_some hne]; rfl
    simp only
    rw [hsl]
    have hp := sortQ_pairwise (pairSlopes pts)
    generalize sortQ (pairSlopes pts) = s at *
    have hn1 : (1 : ℚ) ≤ s.length := by exact_mod_cast hlen
    have hz := hz pts
    generalize zs pts = z at *
    constructor
    · apply getD_le_quantileSorted hp hlen (by norm_num) (by norm_num)
      have hr := roundHE_le (((s.length : Int) - z) / 2)
      push_cast at hr
      have hm : (((max (roundHE ((((s.length : Int) : ℚ) - z) / 2) - 1) 0) : Int) : ℚ) ≤
          1 / 2 * ((s.length : ℚ) - 1) := by
        push_cast
        exact max_le (by linarith) (by linarith)
      have ht : (((max (roundHE ((((s.length : Int) : ℚ) - z) / 2) - 1) 0).toNat : Int)) =
          max (roundHE ((((s.length : Int) : ℚ) - z) / 2) - 1) 0 := Int.toNat_of_nonneg (le_max_right _ _)
      have ht' : (((max (roundHE ((((s.length : Int) : ℚ) - z) / 2) - 1) 0).toNat : ℚ)) =
          ((max (roundHE ((((s.length : Int) : ℚ) - z) / 2) - 1) 0 : Int) : ℚ) := by exact_mod_cast ht
      rw [ht']; exact hm
    · have hr := roundHE_ge (((s.length : Int) + z) / 2)
      push_cast at hr
      have hm : 1 / 2 * ((s.length : ℚ) - 1) ≤
          (((min (roundHE ((((s.length : Int) : ℚ) + z) / 2)) ((s.length : Int) - 1)) : Int) : ℚ) := by
        push_cast
        exact le_min (by linarith) (by linarith)
      have hnn : 0 ≤ min (roundHE ((((s.length : Int) : ℚ) + z) / 2)) ((s.length : Int) - 1) := by
        have : (0 : ℚ) ≤ ((min (roundHE ((((s.length : Int) : ℚ) + z) / 2)) ((s.length : Int) - 1) : Int) : ℚ) :=
          le_trans (by linarith) hm
        exact_mod_cast this
      have ht := Int.toNat_of_nonneg hnn
      have ht' : (((min (roundHE ((((s.length : Int) : ℚ) + z) / 2)) ((s.length : Int) - 1)).toNat : ℚ)) =
          ((min (roundHE ((((s.length : Int) : ℚ) + z) / 2)) ((s.length : Int) - 1) : Int) : ℚ) := by
        exact_mod_cast ht
      apply quantileSorted_le_getD hp hlen (by norm_num) (by norm_num)
      · have : min (roundHE ((((s.length : Int) : ℚ) + z) / 2)) ((s.length : Int) - 1) ≤ (s.length : Int) - 1 :=
          min_le_right _ _
        omega
      · rw [ht']; exact hm

theorem sum_pos_of_pos {l : List ℚ} (hne : l ≠ []) (h : ∀ x ∈ l, 0 < x) : 0 < l.sum := by
  induction l with
  | nil => exact absurd rfl hne
  | cons a l ih =>
    rw [List.sum_cons]
    have ha := h a (by simp)
    by_cases hl : l = []
    · subst hl; simpa using ha
    · have := ih hl fun x hx => h x (by simp [hx])
      linarith

/-- the points of the days with positive performance -/
def posPoints (rows : List SrrRow) (r : Nat) : List (ℚ × ℚ) :=
  (Spec.positiveDays rows r).map fun d => ((d.day : ℚ), d.piNorm)

theorem positiveDays_eq (rows : List SrrRow) (r : Nat) :
    Spec.positiveDays rows r =
      (rows.filter fun d => decide (d.run = r)).filter fun d => decide (0 < d.piNorm) := by
  unfold Spec.positiveDays
  rw [List.filter_filter]
  apply List.filter_congr
  intro d _
  exact Bool.and_comm _ _

theorem fitCond_iff {rows : List SrrRow} {r minLen : Nat} :
    (minLen < (fitRows (rows.filter fun d => decide (d.run = r))).length ∧
      0 < ((fitRows (rows.filter fun d => decide (d.run = r))).map SrrRow.piNorm).sum) ↔
    minLen < (Spec.positiveDays rows r).length := by
  unfold fitRows
  simp only
  rw [← positiveDays_eq]
  split_ifs with h
  · rw [h]
    simp only [List.length_nil, not_lt_zero, iff_false, not_and, not_lt]
    intro _
    have hle : ∀ x ∈ (rows.filter fun d => decide (d.run = r)).map SrrRow.piNorm, x ≤ 0 := by
      intro x hx
      rw [List.mem_map] at hx
      obtain ⟨d, hd, rfl⟩ := hx
      by_contra hc
      push Not at hc
      have : d ∈ Spec.positiveDays rows r := by
        rw [positiveDays_eq, List.mem_filter]
        exact ⟨hd, by simpa using hc⟩
      rw [h] at this
      simp at this
    have := sum_le_mul_length hle
    simpa using this
  · constructor
    · exact fun h => h.1
    · intro hl
      refine ⟨hl, sum_pos_of_pos (by simpa using h) fun x hx => ?_⟩
      rw [List.mem_map] at hx
      obtain ⟨d, hd, rfl⟩ := hx
      rw [positiveDays_eq, List.mem_filter] at hd
      simpa using hd.2

theorem fitRows_eq {rows : List SrrRow} {r : Nat} (h : Spec.positiveDays rows r ≠ []) :
    fitRows (rows.filter fun d => decide (d.run = r)) = Spec.positiveDays rows r := by
  unfold fitRows
  simp only
  rw [← positiveDays_eq, if_neg h]

theorem mkInterval_neg {zs : List (ℚ × ℚ) → ℚ} {rows : List SrrRow} {r minLen : Nat} {a z : SrrRow}
    (h : ¬ minLen < (Spec.positiveDays rows r).length) :
    (mkInterval zs minLen a z (rows.filter fun d => decide (d.run = r))).valid = false ∧
    (mkInterval zs minLen a z (rows.filter fun d => decide (d.run = r))).slope = 0 ∧
    (mkInterval zs minLen a z (rows.filter fun d => decide (d.run = r))).low = 0 ∧
    (mkInterval zs minLen a z (rows.filter fun d => decide (d.run = r))).high = 0 := by
  rw [← fitCond_iff] at h
  unfold mkInterval
  simp only
  rw [if_neg h]
  exact ⟨rfl, rfl, rfl, rfl⟩

theorem mkInterval_pos {zs : List (ℚ × ℚ) → ℚ} {rows : List SrrRow} {r minLen : Nat} {a z : SrrRow}
    (h : minLen < (Spec.positiveDays rows r).length) :
    mkInterval zs minLen a z (rows.filter fun d => decide (d.run = r)) =
      { start := a.t, stop := z.t, length := (z.day : Int) - a.day, run := a.run
        slope := (theil zs (posPoints rows r)).slope
        low := (theil zs (posPoints rows r)).low
        high := min 0 (theil zs (posPoints rows r)).high
        maxNegStep := (((Spec.positiveDays rows r).map SrrRow.delta).min?).getD 0
        infStart := (theil zs (posPoints rows r)).slope * a.day + (theil zs (posPoints rows r)).intercept
        infEnd := (theil zs (posPoints rows r)).slope * z.day + (theil zs (posPoints rows r)).intercept
        valid := true } := by
  have hne : Spec.positiveDays rows r ≠ [] := by
    intro e; rw [e] at h; simp at h
  have h' := fitCond_iff.mpr h
  unfold mkInterval fitPoints posPoints
  simp only
  rw [if_pos h', fitRows_eq hne]

theorem min?_le_iff {l : List ℚ} (hne : l ≠ []) (c : ℚ) : (l.min?).getD 0 ≤ c ↔ ∃ x ∈ l, x ≤ c := by
  cases hm : l.min? with
  | none => rw [List.min?_eq_none_iff] at hm; exact absurd hm hne
  | some m =>
    have h := (List.min?_eq_some_iff).mp hm
    simp only [Option.getD_some]
    constructor
    · intro hc; exact ⟨m, h.1, hc⟩
    · rintro ⟨x, hx, hxc⟩
      exact le_trans (h.2 x hx) hxc

theorem relErr_iff (a x s : ℚ) (hx : s = 0 → 0 ≤ x) (hs : s ≤ 0) :
    Flt.le (.fin (a / 100)) (Flt.ofDiv x |s|) = false ↔
      (s < 0 → 100 * x < a * (-s)) ∧ (s = 0 → x ≤ 0) := by
  rcases lt_or_eq_of_le hs with h | h
  · have hne : |s| ≠ 0 := by simpa using h.ne
    unfold Flt.ofDiv
    rw [if_neg hne, abs_of_neg h]
    simp only [Flt.le, decide_eq_false_iff_not, not_le]
    rw [div_lt_div_iff₀ (by linarith) (by norm_num)]
    constructor
    · intro g; exact ⟨fun _ => by linarith, fun e => absurd e h.ne⟩
    · rintro ⟨g, -⟩; have := g h; linarith
  · subst h
    have h0 := hx rfl
    unfold Flt.ofDiv
    simp only [abs_zero, if_true]
    rcases lt_or_eq_of_le h0 with g | g
    · rw [if_neg g.ne', if_pos g]
      simp only [Flt.le, Bool.true_eq_false, lt_self_iff_false, false_imp_iff, true_and, true_imp_iff,
        false_iff, not_le]
      exact g
    · rw [← g]
      simp [Flt.le]

/-- the exclusion test on a fitted interval is the documented validity -/
theorem exclude_mk {zs : List (ℚ × ℚ) → ℚ} (hz : ∀ p, 0 ≤ zs p) {o : ResultOpts} {rows : List SrrRow}
    {r : Nat} {a z : SrrRow} (h : o.minIntervalLength < (Spec.positiveDays rows r).length) :
    excluded o (mkInterval zs o.minIntervalLength a z (rows.filter fun d => decide (d.run = r))) = false ↔
      Spec.ValidInterval (theil zs (posPoints rows r)) o rows r := by
  have hne : (Spec.positiveDays rows r).map SrrRow.delta ≠ [] := by
    intro e
    rw [List.map_eq_nil_iff] at e
    rw [e] at h; simp at h
  have hb := theil_bounds hz (posPoints rows r)
  rw [mkInterval_pos h]
  unfold excluded Spec.ValidInterval
  simp only [Bool.or_eq_false_iff, decide_eq_false_iff_not, not_lt, not_le]
  have hmin : ¬ ((((Spec.positiveDays rows r).map SrrRow.delta).min?).getD 0 ≤ -1 * o.maxNegativeStep) ↔
      ∀ d ∈ Spec.positiveDays rows r, -o.maxNegativeStep < d.delta := by
    rw [min?_le_iff hne]
    push Not
    constructor
    · intro g d hd
      have := g d.delta (List.mem_map.mpr ⟨d, hd, rfl⟩)
      linarith
    · intro g x hx
      obtain ⟨d, hd, rfl⟩ := List.mem_map.mp hx
      have := g d hd
      linarith
  rw [← not_le, hmin]
  constructor
  · rintro ⟨⟨h1, h2⟩, h3⟩
    rw [relErr_iff _ _ _ (fun e => ?_) h1] at h2
    · refine ⟨h, h1, h2.1, fun e => ?_, h3⟩
      have := h2.2 e; linarith
    · have := hb.1; have := hb.2
      rw [e] at *
      rw [min_eq_left (by linarith)]; linarith
  · rintro ⟨-, h1, h2, h4, h3⟩
    refine ⟨⟨h1, ?_⟩, h3⟩
    rw [relErr_iff _ _ _ (fun e => ?_) h1]
    · exact ⟨h2, fun e => by have := h4 e; linarith⟩
    · have := hb.1; have := hb.2
      rw [e] at *
      rw [min_eq_left (by linarith)]; linarith

/-- the complete content of one table row -/
theorem table_row {zs : List (ℚ × ℚ) → ℚ} (hz : ∀ p, 0 ≤ zs p) {o : ResultOpts} {rows : List SrrRow}
    {i : Interval} (hi : i ∈ intervalTable zs o rows) :
    (i.valid = true ↔ Spec.ValidInterval (theil zs (posPoints rows i.run)) o rows i.run) ∧
    (i.valid = true → i.slope = (theil zs (posPoints rows i.run)).slope ∧
      i.low = (theil zs (posPoints rows i.run)).low ∧
      i.high = min 0 (theil zs (posPoints rows i.run)).high ∧
      ∃ a z, a ∈ rows ∧ z ∈ rows ∧ i.start = a.t ∧ i.stop = z.t ∧
        i.infStart = (theil zs (posPoints rows i.run)).slope * a.day +
          (theil zs (posPoints rows i.run)).intercept ∧
        i.infEnd = (theil zs (posPoints rows i.run)).slope * z.day +
          (theil zs (posPoints rows i.run)).intercept) ∧
    (i.valid = false → i.slope = 0 ∧ i.low = 0 ∧ i.high = 0) := by
  obtain ⟨r, hr, i0, hi0, x, y, e⟩ := mem_table hi
  obtain ⟨a, z, ha, hz', har, hzr, e0, hh, hl⟩ := intervalOf_some hi0
  have hrun : i.run = r := by
    rw [show i.run = (exclude o i0).run by rw [e], (exclude_fields o i0).2.2.1, e0,
      (mkInterval_fields _ _ _ _ _).2.2.1, har]
  rw [hrun]
  have ev : i.valid = (exclude o i0).valid := by rw [e]
  have es : i.slope = (exclude o i0).slope := by rw [e]
  have el : i.low = (exclude o i0).low := by rw [e]
  have eh : i.high = (exclude o i0).high := by rw [e]
  have e1 : i.infStart = (exclude o i0).infStart := by rw [e]
  have e2 : i.infEnd = (exclude o i0).infEnd := by rw [e]
  have e3 : i.start = (exclude o i0).start := by rw [e]
  have e4 : i.stop = (exclude o i0).stop := by rw [e]
  rw [ev, es, el, eh, e1, e2, e3, e4]
  by_cases hlen : o.minIntervalLength < (Spec.positiveDays rows r).length
  · have hex := exclude_mk hz (a := a) (z := z) hlen
    rw [← e0] at hex
    unfold exclude
    by_cases hx : excluded o i0 = true
    · rw [if_pos hx]
      have hnv : ¬ Spec.ValidInterval (theil zs (posPoints rows r)) o rows r := by
        rw [← hex, hx]; simp
      simp [hnv]
    · rw [Bool.not_eq_true] at hx
      rw [if_neg (by simp [hx])]
      have hv := hex.mp hx
      rw [e0, mkInterval_pos hlen]
      simp only [hv, true_iff, true_imp_iff, Bool.true_eq_false, false_imp_iff, and_true, true_and]
      exact ⟨a, z, ha, hz', rfl, rfl, rfl, rfl⟩
  · obtain ⟨m1, m2, m3, m4⟩ := mkInterval_neg (zs := zs) (a := a) (z := z) hlen
    rw [← e0] at m1 m2 m3 m4
    have hnv : ¬ Spec.ValidInterval (theil zs (posPoints rows r)) o rows r := fun h => hlen h.1
    unfold exclude
    split_ifs
    · simp [hnv]
    · simp [hnv, m1, m2, m3, m4]

theorem mem_runList_iff {trim : Bool} {rows : List SrrRow} {r : Nat} :
    r ∈ runList trim rows ↔ Spec.Considered trim rows r := by
  unfold Spec.Considered
  cases trim with
  | false => simp [mem_runList]
  | true =>
    have hs := runList_sorted false rows
    have hm : ∀ q, q ∈ runList false rows ↔ ∃ d ∈ rows, d.run = q := fun q => mem_runList
    have e : runList true rows = ((runList false rows).drop 1).dropLast := rfl
    rw [e]
    generalize runList false rows = s at *
    have key : r ∈ (s.drop 1).dropLast ↔ r ∈ s ∧ (∃ q ∈ s, q < r) ∧ ∃ q ∈ s, r < q := by
      cases s with
      | nil => simp
      | cons a l =>
        rw [List.drop_succ_cons, List.drop_zero]
        rw [List.pairwise_cons] at hs
        constructor
        · intro h
          have hl : r ∈ l := (List.dropLast_sublist _).subset h
          have hne : l ≠ [] := by rintro rfl; simp at hl
          refine ⟨by simp [hl], ⟨a, by simp, hs.1 r hl⟩, ⟨l.getLast hne, by simp, ?_⟩⟩
          have h2 := hs.2
          rw [← List.dropLast_append_getLast hne, List.pairwise_append] at h2
          exact h2.2.2 r h _ (by simp)
        · rintro ⟨h1, ⟨q, hq, hqr⟩, ⟨q', hq', hqr'⟩⟩
          have hl : r ∈ l := by
            rcases List.mem_cons.mp h1 with rfl | h1
            · exfalso
              rcases List.mem_cons.mp hq with rfl | hq
              · omega
              · have := hs.1 q hq; omega
            · exact h1
          have hne : l ≠ [] := by rintro rfl; simp at hl
          have h2 := hs.2
          rw [← List.dropLast_append_getLast hne] at hl h2
          rw [List.pairwise_append] at h2
          rcases List.mem_append.mp hl with hl | hl
          · exact hl
          · simp only [List.mem_singleton] at hl
            exfalso
            have hq'l : q' ∈ l := by
              rcases List.mem_cons.mp hq' with rfl | h
              · have := hs.1 (l.getLast hne) (List.getLast_mem hne); omega
              · exact h
            rw [← List.dropLast_append_getLast hne] at hq'l
            rcases List.mem_append.mp hq'l with h | h
            · have := h2.2.2 q' h (l.getLast hne) (by simp); omega
            · simp only [List.mem_singleton] at h; omega
    rw [key, hm]
    simp only [hm, true_imp_iff]
    constructor
    · rintro ⟨h1, ⟨q, ⟨d, hd, rfl⟩, hq⟩, ⟨q', ⟨d', hd', rfl⟩, hq'⟩⟩
      exact ⟨h1, ⟨d, hd, hq⟩, ⟨d', hd', hq'⟩⟩
    · rintro ⟨h1, ⟨d, hd, hq⟩, ⟨d', hd', hq'⟩⟩
      exact ⟨h1, ⟨_, ⟨d, hd, rfl⟩, hq⟩, ⟨_, ⟨d', hd', rfl⟩, hq'⟩⟩

theorem calcResultDf_ok {zs : List (ℚ × ℚ) → ℚ} {o : ResultOpts} {rows : List SrrRow}
    {r : List Interval × List (SrrRow × Option Interval)} (h : calcResultDf zs o rows = .ok r) :
    r.1 = intervalTable zs o rows ∧ r.2 = analyzedDays r.1 rows ∧ ∃ i ∈ r.1, i.valid = true := by
  unfold calcResultDf at h
  simp only at h
  split_ifs at h with h1 h2
  simp only [Except.ok.injEq] at h
  subst h
  refine ⟨rfl, rfl, ?_⟩
  obtain ⟨i, hi⟩ := List.exists_mem_of_ne_nil _ h2
  rw [List.mem_filter] at hi
  exact ⟨i, hi.1, hi.2⟩

end Verif
