import Verif.Props.SrrShifts
import Verif.Props.SrrIntervals

/-! # Property C146 (looser settings of the SRR analysis find more cleanings and keep more intervals) -/

namespace Verif.Spec

/-- every day cleaned by the first criterion is cleaned by the second -/
def CriterionImplies : CleanCriterion → CleanCriterion → Prop
  | .precipAndShift, .shift => True
  | .precipAndShift, .precipOrShift => True
  | .shift, .precipOrShift => True
  | .precip, .precipOrShift => True
  | c, c' => c = c'

/-- the second threshold on the steps is the looser one: a lower given value, or inferred in both with a
smaller outlier factor -/
def LooserThreshold (o o' : DailyOpts) : Prop :=
  (∃ c c', o.cleanThreshold = some c ∧ o'.cleanThreshold = some c' ∧ c' ≤ c) ∨
    (o.cleanThreshold = none ∧ o'.cleanThreshold = none ∧ o'.outlierFactor ≤ o.outlierFactor)

/-- what the analysis says about a day apart from the cleanings: time, performance, insolation, step -/
def dayValues (d : SrrRow) : (Int × Nat) × (ℚ × ℚ) × ℚ × ℚ := ((d.t, d.day), (d.pi, d.insol), d.piNorm, d.delta)

end Verif.Spec

namespace Verif
open Spec

theorem daily_frame {o o' : DailyOpts} (hs : o'.dayScale = o.dayScale) (hr : o'.recenter = o.recenter)
    {pm insol : Series} {precip : Option Series} {r r' : Cell × List SrrRow}
    (h : calcDailyDf o pm insol precip = .ok r) (h' : calcDailyDf o' pm insol precip = .ok r') :
    r'.1 = r.1 ∧ ∃ (df : List SrrDay) (x delta : List Cell) (ev ev' : List Bool),
      x.length = df.length ∧ delta.length = df.length ∧ ev.length = df.length ∧ ev'.length = df.length ∧
      srrCriterion o.criterion (srrDetected o delta) (df.map (rainy o.precipThreshold)) = .ok ev ∧
      srrCriterion o'.criterion (srrDetected o' delta) (df.map (rainy o'.precipThreshold)) = .ok ev' ∧
      r.2 = srrRows df x delta (withOutages o.dayScale x ev) ∧
      r'.2 = srrRows df x delta (withOutages o.dayScale x ev') := by
  obtain ⟨-, -, ev, hev, h1, h2⟩ := calcDailyDf_ok h
  obtain ⟨-, -, ev', hev', h1', h2'⟩ := calcDailyDf_ok h'
  rw [hs, hr] at hev'
  rw [hr, ← h1] at h1'
  rw [hs, h1'] at h2'
  rw [← h1] at hev hev'
  refine ⟨h1', _, _, _, ev, ev', ?_, ?_, ?_, ?_, hev, hev', h2, h2'⟩
  · simp [srrNorm_length]
  · simp [srrNorm_length, srrDelta_length]
  · have := srrCriterion_length (by simp [srrDetected, srrDelta_length, srrNorm_length]) hev
    simpa using this
  · have := srrCriterion_length (by simp [srrDetected, srrDelta_length, srrNorm_length]) hev'
    simpa using this

/-- **C146 (values).** The cleaning criterion and the thresholds decide only which days are cleanings: two
runs differing in nothing else report the same factor, days, performance, insolation and steps. -/
theorem C146_values {o o' : DailyOpts} (hs : o'.dayScale = o.dayScale) (hr : o'.recenter = o.recenter)
    {pm insol : Series} {precip : Option Series} {r r' : Cell × List SrrRow}
    (h : calcDailyDf o pm insol precip = .ok r) (h' : calcDailyDf o' pm insol precip = .ok r') :
    r'.1 = r.1 ∧ r'.2.map dayValues = r.2.map dayValues := by
  obtain ⟨h1, df, x, delta, ev, ev', -, -, -, -, -, -, e, e'⟩ := daily_frame hs hr h h'
  refine ⟨h1, ?_⟩
  rw [e, e']
  simp [srrRows, dayValues]

theorem srrDetected_mono {o o' : DailyOpts} (ht : LooserThreshold o o') {delta : List Cell} {i : Nat}
    (h : (srrDetected o delta)[i]? = some true) : (srrDetected o' delta)[i]? = some true := by
  have key : ∀ t, srrThreshold o delta = some t → ∃ t', srrThreshold o' delta = some t' ∧ t' ≤ t := by
    intro t hthr
    unfold srrThreshold at *
    rcases ht with ⟨c, c', e, e', hc⟩ | ⟨e, e', hc⟩
    · rw [e] at hthr
      rw [e']
      simp only [Option.some.injEq] at hthr
      exact ⟨c', rfl, hthr ▸ hc⟩
    · rw [e] at hthr
      rw [e']
      simp only at hthr ⊢
      generalize (valids delta).map abs = d at *
      cases h3 : quantile d (3 / 4) with
      | none => rw [h3] at hthr; simp [cellOp] at hthr
      | some q3 =>
        cases h1 : quantile d (1 / 4) with
        | none => rw [h3, h1] at hthr; simp [cellOp] at hthr
        | some q1 =>
          rw [h3, h1] at hthr
          simp only [cellOp, Option.some.injEq] at hthr ⊢
          refine ⟨_, rfl, ?_⟩
          have := quantile_mono h1 h3 (by norm_num) (by norm_num) (by norm_num)
          rw [← hthr]
          nlinarith
  unfold srrDetected at *
  rw [List.getElem?_map] at h ⊢
  cases hd : delta[i]? with
  | none => rw [hd] at h; simp at h
  | some d =>
    rw [hd] at h
    simp only [Option.map_some, Option.some.injEq] at h ⊢
    cases d with
    | none => simp [cellCmp] at h
    | some v =>
      cases hthr : srrThreshold o delta with
      | none => rw [hthr] at h; simp [cellCmp] at h
      | some t =>
        obtain ⟨t', e', ht'⟩ := key t hthr
        rw [hthr] at h
        rw [e']
        simp only [cellCmp, decide_eq_true_eq] at h ⊢
        linarith

theorem rainy_mono {thr thr' : ℚ} (h : thr' ≤ thr) {df : List SrrDay} {i : Nat}
    (hr : (df.map (rainy thr))[i]? = some true) : (df.map (rainy thr'))[i]? = some true := by
  rw [List.getElem?_map] at *
  cases hd : df[i]? with
  | none => rw [hd] at hr; simp at hr
  | some d =>
    rw [hd] at hr
    simp only [Option.map_some, Option.some.injEq, rainy] at hr ⊢
    cases hp : d.precip with
    | none => rw [hp] at hr; simp [cellCmp] at hr
    | some v =>
      rw [hp] at hr
      simp only [cellCmp, decide_eq_true_eq] at hr ⊢
      linarith

theorem cleanedBy_mono {c c' : CleanCriterion} (hc : CriterionImplies c c') {det det' rain rain' : List Bool}
    (hd : ∀ i : Nat, det[i]? = some true → det'[i]? = some true)
    (hr : ∀ i : Nat, rain[i]? = some true → rain'[i]? = some true) {i : Nat} (h : CleanedBy c det rain i) :
    CleanedBy c' det' rain' i := by
  have hn : RainNear rain i → RainNear rain' i := fun ⟨k, h1, h2⟩ => ⟨k, hr k h1, h2⟩
  cases c <;> cases c' <;> simp only [CriterionImplies, reduceCtorEq] at hc <;>
    simp only [CleanedBy] at h ⊢ <;> grind

theorem withOutages_mono {w : Nat} {x : List Cell} {ev ev' : List Bool} (h : ev.length = x.length)
    (h' : ev'.length = x.length) (he : ∀ i : Nat, ev[i]? = some true → ev'[i]? = some true) {i : Nat}
    (hi : (withOutages w x ev)[i]? = some true) : (withOutages w x ev')[i]? = some true := by
  have hl : i < x.length := by
    have := (List.getElem?_eq_some_iff.mp hi).1
    rwa [withOutages_length h] at this
  rw [withOutages_iff h hl] at hi
  rw [withOutages_iff h' hl]
  exact hi.imp_left (he i)

theorem daily_mono {o o' : DailyOpts} (hs : o'.dayScale = o.dayScale) (hr : o'.recenter = o.recenter)
    (hc : CriterionImplies o.criterion o'.criterion) (ht : LooserThreshold o o')
    (hp : o'.precipThreshold ≤ o.precipThreshold)
    {pm insol : Series} {precip : Option Series} {r r' : Cell × List SrrRow}
    (h : calcDailyDf o pm insol precip = .ok r) (h' : calcDailyDf o' pm insol precip = .ok r') :
    ∃ (df : List SrrDay) (x delta : List Cell) (w w' : List Bool), w.length = df.length ∧ w'.length = df.length ∧
      r.2 = srrRows df x delta w ∧ r'.2 = srrRows df x delta w' ∧
      ∀ i : Nat, w[i]? = some true → w'[i]? = some true := by
  obtain ⟨-, df, x, delta, ev, ev', l1, l2, l3, l4, c1, c2, e, e'⟩ := daily_frame hs hr h h'
  refine ⟨df, x, delta, _, _, ?_, ?_, e, e', fun i => ?_⟩
  · rw [withOutages_length (by omega)]; omega
  · rw [withOutages_length (by omega)]; omega
  · apply withOutages_mono (by omega) (by omega)
    intro i hi
    have hl : i < df.length := by
      have := (List.getElem?_eq_some_iff.mp hi).1
      omega
    rw [srrCriterion_iff (by simp [srrDetected, l2]) c1 (by simpa using hl)] at hi
    rw [srrCriterion_iff (by simp [srrDetected, l2]) c2 (by simpa using hl)]
    exact cleanedBy_mono hc (fun _ => srrDetected_mono ht) (fun _ => rainy_mono hp) hi

/-- **C146 (cleanings).** A lower threshold on the steps (given, or inferred with a smaller outlier factor), a
lower precipitation threshold and a criterion implied by the old one only add cleanings: every day that was a
cleaning still is one. -/
theorem C146_cleanings {o o' : DailyOpts} (hs : o'.dayScale = o.dayScale) (hr : o'.recenter = o.recenter)
    (hc : CriterionImplies o.criterion o'.criterion) (ht : LooserThreshold o o')
    (hp : o'.precipThreshold ≤ o.precipThreshold)
    {pm insol : Series} {precip : Option Series} {r r' : Cell × List SrrRow}
    (h : calcDailyDf o pm insol precip = .ok r) (h' : calcDailyDf o' pm insol precip = .ok r')
    {i : Nat} {d d' : SrrRow} (hd : r.2[i]? = some d) (hd' : r'.2[i]? = some d') (he : d.event = true) :
    d'.event = true := by
  obtain ⟨df, x, delta, w, w', l, l', e, e', hm⟩ := daily_mono hs hr hc ht hp h h'
  rw [e] at hd
  rw [e'] at hd'
  obtain ⟨hi, rfl⟩ := List.getElem?_eq_some_iff.mp hd
  obtain ⟨hi', rfl⟩ := List.getElem?_eq_some_iff.mp hd'
  rw [srrRows_length] at hi
  rw [srrRows_getElem hi l] at he
  rw [srrRows_getElem hi l']
  have := hm i (List.getElem?_eq_some_iff.mpr ⟨by omega, he⟩)
  exact (List.getElem?_eq_some_iff.mp this).2

theorem count_take_mono {w w' : List Bool} (hl : w'.length = w.length)
    (hm : ∀ i : Nat, w[i]? = some true → w'[i]? = some true) (i n : Nat) :
    ((w.drop i).take n).count true ≤ ((w'.drop i).take n).count true := by
  induction n generalizing i with
  | zero => simp
  | succ n ih =>
    by_cases hi : i < w.length
    · rw [List.drop_eq_getElem_cons hi, List.drop_eq_getElem_cons (by omega : i < w'.length),
        List.take_succ_cons, List.take_succ_cons, List.count_cons, List.count_cons]
      have := ih (i + 1)
      have h1 := hm i
      rw [List.getElem?_eq_getElem hi, List.getElem?_eq_getElem (by omega : i < w'.length)] at h1
      simp only [Option.some.injEq] at h1
      by_cases hw : w[i] = true
      · rw [hw, h1 hw]; simpa using this
      · simp only [Bool.not_eq_true] at hw
        rw [hw]
        simp only [beq_iff_eq, Bool.false_eq_true, ↓reduceIte]
        split_ifs <;> omega
    · rw [List.drop_eq_nil_of_le (by omega), List.drop_eq_nil_of_le (by omega)]

/-- **C146 (intervals are divided).** The soiling intervals of the looser settings divide those of the stricter
ones: days in one interval of the looser analysis were in one interval of the stricter analysis, and the number
of cleanings up to a day is never smaller. -/
theorem C146_divided {o o' : DailyOpts} (hs : o'.dayScale = o.dayScale) (hr : o'.recenter = o.recenter)
    (hc : CriterionImplies o.criterion o'.criterion) (ht : LooserThreshold o o')
    (hp : o'.precipThreshold ≤ o.precipThreshold)
    {pm insol : Series} {precip : Option Series} {r r' : Cell × List SrrRow}
    (h : calcDailyDf o pm insol precip = .ok r) (h' : calcDailyDf o' pm insol precip = .ok r') :
    (∀ (i : Nat) (d d' : SrrRow), r.2[i]? = some d → r'.2[i]? = some d' → d.run ≤ d'.run) ∧
    ∀ (i j : Nat) (d d' e e' : SrrRow), r.2[i]? = some d → r'.2[i]? = some d' → r.2[j]? = some e →
      r'.2[j]? = some e' → d'.run = e'.run → d.run = e.run := by
  obtain ⟨df, x, delta, w, w', l, l', e, e', hm⟩ := daily_mono hs hr hc ht hp h h'
  have hrun : ∀ (i : Nat) (d d' : SrrRow), r.2[i]? = some d → r'.2[i]? = some d' →
      d.run = (w.take (i + 1)).count true ∧ d'.run = (w'.take (i + 1)).count true := by
    intro i d d' hd hd'
    rw [e] at hd
    rw [e'] at hd'
    obtain ⟨hi, rfl⟩ := List.getElem?_eq_some_iff.mp hd
    obtain ⟨hi', rfl⟩ := List.getElem?_eq_some_iff.mp hd'
    rw [srrRows_length] at hi
    rw [srrRows_getElem hi l, srrRows_getElem hi l']
    exact ⟨rfl, rfl⟩
  have hcm := count_take_mono (by omega : w'.length = w.length) hm
  constructor
  · intro i d d' hd hd'
    obtain ⟨e1, e2⟩ := hrun i d d' hd hd'
    rw [e1, e2]
    simpa using hcm 0 (i + 1)
  · have key : ∀ (i j : Nat), i ≤ j → (w'.take (i + 1)).count true = (w'.take (j + 1)).count true →
        (w.take (i + 1)).count true = (w.take (j + 1)).count true := by
      intro i j hij he
      have split : ∀ v : List Bool, (v.take (j + 1)).count true =
          (v.take (i + 1)).count true + ((v.drop (i + 1)).take (j - i)).count true := by
        intro v
        rw [show j + 1 = (i + 1) + (j - i) by omega, List.take_add, List.count_append]
      have := hcm (i + 1) (j - i)
      rw [split w'] at he
      rw [split w]
      omega
    intro i j d d' f f' hd hd' hf hf' he
    obtain ⟨e1, e2⟩ := hrun i d d' hd hd'
    obtain ⟨e3, e4⟩ := hrun j f f' hf hf'
    rw [e2, e4] at he
    rw [e1, e3]
    rcases le_total i j with hij | hij
    · exact key i j hij he
    · exact (key j i hij he.symm).symm

/-! ## Validity of the intervals -/

theorem validInterval_mono {fit : TheilFit} {o o' : ResultOpts} (hl : o'.minIntervalLength ≤ o.minIntervalLength)
    (he : o.maxRelSlopeError ≤ o'.maxRelSlopeError) (hn : o.maxNegativeStep ≤ o'.maxNegativeStep)
    {rows : List SrrRow} {k : Nat} (h : ValidInterval fit o rows k) : ValidInterval fit o' rows k := by
  obtain ⟨h1, h2, h3, h4, h5⟩ := h
  refine ⟨by omega, h2, fun hs => ?_, h4, fun d hd => ?_⟩
  · have := h3 hs
    nlinarith
  · have := h5 d hd
    linarith

theorem valid_row {zs : List (ℚ × ℚ) → ℚ} {o : ResultOpts} {rows : List SrrRow} {i : Interval}
    (hi : i ∈ intervalTable zs o rows) (hv : i.valid = true) :
    ∃ a z, (rows.filter fun d => decide (d.run = i.run)).head? = some a ∧
      (rows.filter fun d => decide (d.run = i.run)).getLast? = some z ∧
      ∃ x y, i = { mkInterval zs 0 a z (rows.filter fun d => decide (d.run = i.run)) with next := x, recovery := y } := by
  obtain ⟨k, hk, i0, hi0, x, y, e⟩ := mem_table hi
  obtain ⟨a, z, ha, hz, har, hzr, e0, hh, hl⟩ := intervalOf_some hi0
  have hv0 : (exclude o i0).valid = true := by rw [← hv, e]
  have hex : exclude o i0 = i0 := by
    unfold exclude at hv0 ⊢
    split_ifs at hv0 ⊢
    rfl
  have hrun : i.run = k := by
    rw [show i.run = (exclude o i0).run by rw [e], hex, e0, (mkInterval_fields _ _ _ _ _).2.2.1, har]
  rw [hrun]
  refine ⟨a, z, hh, hl, x, y, ?_⟩
  rw [e, hex]
  have : i0 = mkInterval zs 0 a z (rows.filter fun d => decide (d.run = k)) := by
    rw [hex, e0] at hv0
    rw [e0]
    unfold mkInterval at hv0 ⊢
    simp only at hv0 ⊢
    split_ifs at hv0 with hc
    rw [if_pos hc, if_pos ⟨by omega, hc.2⟩]
  rw [← this]

/-- **C146 (valid intervals).** For the same days, a smaller minimum length, a larger allowed slope error, a larger
allowed negative step and no trimming only add valid intervals: the analysis succeeds whenever the stricter one
does, and every interval that was valid is again valid, with the same days, rate, bounds and inferred losses. -/
theorem C146_valid {zs : List (ℚ × ℚ) → ℚ} (hz : ∀ p, 0 ≤ zs p) {o o' : ResultOpts}
    (hl : o'.minIntervalLength ≤ o.minIntervalLength) (he : o.maxRelSlopeError ≤ o'.maxRelSlopeError)
    (hn : o.maxNegativeStep ≤ o'.maxNegativeStep) (ht : o'.trim = true → o.trim = true) {rows : List SrrRow}
    {r : List Interval × List (SrrRow × Option Interval)} (h : calcResultDf zs o rows = .ok r) :
    ∃ r', calcResultDf zs o' rows = .ok r' ∧ ∀ i ∈ r.1, i.valid = true → ∃ i' ∈ r'.1, i'.valid = true ∧
      i'.run = i.run ∧ (i'.start, i'.stop, i'.length) = (i.start, i.stop, i.length) ∧
      (i'.slope, i'.low, i'.high) = (i.slope, i.low, i.high) ∧
      (i'.infStart, i'.infEnd, i'.maxNegStep) = (i.infStart, i.infEnd, i.maxNegStep) := by
  obtain ⟨h1, -, j, hj, hjv⟩ := calcResultDf_ok h
  have key : ∀ i ∈ r.1, i.valid = true → ∃ i' ∈ intervalTable zs o' rows, i'.valid = true ∧ i'.run = i.run := by
    intro i hi hv
    rw [h1] at hi
    have hval := validInterval_mono hl he hn ((table_row hz hi).1.mp hv)
    have hmem : i.run ∈ runList o.trim rows := by
      rw [← table_runs (zs := zs) (o := o)]
      exact List.mem_map_of_mem hi
    rw [mem_runList_iff] at hmem
    have hmem' : i.run ∈ runList o'.trim rows := by
      rw [mem_runList_iff]
      exact ⟨hmem.1, fun h => hmem.2 (ht h)⟩
    rw [← table_runs (zs := zs) (o := o')] at hmem'
    obtain ⟨i', hi', e⟩ := List.mem_map.mp hmem'
    refine ⟨i', hi', ?_, e⟩
    rw [(table_row hz hi').1, e]
    exact hval
  have hok : calcResultDf zs o' rows = .ok (intervalTable zs o' rows, analyzedDays (intervalTable zs o' rows) rows) := by
    obtain ⟨i', hi', hv', -⟩ := key j hj hjv
    unfold calcResultDf
    simp only
    rw [if_neg (List.ne_nil_of_mem hi'), if_neg]
    exact List.ne_nil_of_mem (List.mem_filter.mpr ⟨hi', hv'⟩)
  refine ⟨_, hok, fun i hi hv => ?_⟩
  obtain ⟨i', hi', hv', e⟩ := key i hi hv
  refine ⟨i', hi', hv', e, ?_⟩
  rw [h1] at hi
  obtain ⟨a, z, ha, hz', x, y, ei⟩ := valid_row hi hv
  obtain ⟨a', z', ha', hz'', x', y', ei'⟩ := valid_row hi' hv'
  rw [e] at ha' hz'' ei'
  rw [ha] at ha'
  rw [hz'] at hz''
  simp only [Option.some.injEq] at ha' hz''
  subst ha' hz''
  generalize mkInterval zs 0 a z (rows.filter fun d => decide (d.run = i.run)) = m at *
  generalize i'.run = k at *
  rw [ei, ei']
  exact ⟨rfl, rfl, rfl⟩

/-- the hypotheses hold for the example data: a lower threshold finds the small step too -/
example : LooserThreshold { dayScale := 3, recenter := false, cleanThreshold := some (1/5) }
      { dayScale := 3, recenter := false, cleanThreshold := some (1/50) } ∧
    CriterionImplies .shift .shift :=
  ⟨Or.inl ⟨_, _, rfl, rfl, by norm_num⟩, rfl⟩

example : (calcDailyDf { SrrEx.opts with cleanThreshold := some (1/5) } SrrEx.pm SrrEx.insol none).toOption.isSome ∧
    (calcDailyDf { SrrEx.opts with cleanThreshold := some (1/50) } SrrEx.pm SrrEx.insol none).toOption.isSome := by
  decide +kernel

/-- and the intervals stay valid when the minimum length is lowered from 3 to 1 -/
example : ((calcDailyDf SrrEx.opts SrrEx.pm SrrEx.insol none).toOption.bind fun r =>
      (calcResultDf (fun _ => 0) { SrrEx.res with minIntervalLength := 1 } r.2).toOption.map fun x =>
        x.1.map fun i => (i.valid, i.slope)) = some [(true, -1/10), (true, -1/10)] := by decide +kernel

end Verif
