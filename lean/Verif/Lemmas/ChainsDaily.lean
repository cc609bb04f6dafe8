import Verif.Model.ChainsDaily
import Verif.Props.ChainsFilter
import Verif.Props.Aggregation
import Verif.Props.AggregationBins
import Verif.Lemmas.EnergySign

/-! # Lemmas about the aggregated performance of an analysis -/

namespace Verif.Chains
open Verif.Spec Verif.Linear
variable {Loc σ : Type} {n : Numeric} {k : Keywords} {rest : Env Loc YoYResult σ} {c : Case}

theorem verdictAt_pointwise {f : Flt → Bool} {x : Series} (hn : (x.map Prod.fst).Nodup) {t : Int} {v : Cell}
    (h : (t, v) ∈ x) : verdictAt (pointwise f x) t = f (Flt.ofCell v) := by
  induction x with
  | nil => simp at h
  | cons r x ih =>
    obtain ⟨u, w⟩ := r
    simp only [List.map_cons, List.nodup_cons] at hn
    simp only [pointwise, List.map_cons, verdictAt]
    rcases List.mem_cons.mp h with e | h
    · cases e; rw [if_pos rfl]
    · rw [if_neg (by rintro rfl; exact hn.1 (List.mem_map.mpr ⟨_, h, rfl⟩))]
      exact ih hn.2 h

theorem normalizedFilter_finite {lo hi : Option Flt} {v : Cell}
    (h : normalizedFilter lo hi (Flt.ofCell v) = true) : ∃ q, v = some q := by
  cases v with
  | some q => exact ⟨q, rfl⟩
  | none =>
    unfold normalizedFilter at h
    simp only [Flt.ofCell, Bool.and_eq_true] at h
    exfalso
    revert h
    cases hi.getD Flt.pinf <;> cases lo.getD Flt.ninf <;> simp [Flt.lt]

/-- the rows selected after filtering with a normalized filter are present -/
theorem selected_finite {energy : Series} {s s' : TA Loc YoYResult σ} {mask : BMask}
    (hE : (energy.map Prod.fst).Nodup) (hn : s.params.items.has "normalized_filter" = true)
    (h : filter (degradationEnv n k rest) energy c s = (.ok (), s')) (hm : (s'.out c).mask = some mask)
    {t : Int} {v : Cell} (hv : (t, v) ∈ select energy mask) : (t, v) ∈ energy ∧ ∃ q, v = some q := by
  unfold select at hv
  rw [List.mem_filter] at hv
  refine ⟨hv.1, ?_⟩
  obtain ⟨mask', em, hc⟩ := C53_conjunction h
  rw [hm] at em
  cases em
  have hA := ((hc t).mp hv.2).2.1
  have hget : s.params.items.get? "normalized_filter" ≠ none := by
    unfold Dict.has at hn
    intro e
    rw [e] at hn
    cases hn
  obtain ⟨r, hr⟩ := C53_enabled h (name := "normalized_filter") (by cases c <;> simp [Spec.names]) hget
  obtain ⟨m, e, hvd⟩ := hA _ _ hr
  generalize hname : "normalized_filter" = name at hr
  cases hr with
  | normalized hk =>
    simp only [degradationEnv] at e
    cases e
    rw [verdictAt_pointwise hE hv.1] at hvd
    exact normalizedFilter_finite hvd
  | poaSensor => simp at hname
  | poaClearsky => simp at hname
  | tcellSensor => simp at hname
  | tcellClearsky => simp at hname
  | clip => simp at hname
  | hourAngle => simp at hname
  | clearsky => simp at hname
  | sensorClearsky => simp at hname

/-- a period that fits the days: a whole number of periods per day, or of days per period -/
def Spec.FitsDays (freq : Int) : Prop := freq ∣ dayNs ∨ dayNs ∣ freq

/-- every label is a whole number of periods from midnight of the first -/
def OnGrid (freq : Int) (x : List Int) : Prop :=
  ∀ a ∈ x, (∀ t ∈ x, a ≤ t) → ∀ t ∈ x, freq ∣ t - startDay a

theorem regularIndex_eq {freq : Int} : ∀ (l : List Int) (a b origin : Int), origin + b * freq = a →
    regularIndex freq (a :: l) = true → a :: l = (intRange b (l.length + 1)).map fun b => origin + b * freq
  | [], a, b, origin, h, _ => by simp [intRange, h]
  | c :: l, a, b, origin, h, hr => by
    simp only [regularIndex, Bool.and_eq_true, decide_eq_true_eq] at hr
    have ih := regularIndex_eq l c (b + 1) origin (by rw [add_mul, one_mul]; omega) hr.2
    rw [List.length_cons, intRange, List.map_cons, ← ih, h]

theorem regularIndex_le {freq : Int} (hf : 0 < freq) : ∀ (l : List Int) (a : Int), regularIndex freq (a :: l) = true →
    ∀ t ∈ a :: l, a ≤ t
  | [], a, _, t, ht => by simp at ht; omega
  | c :: l, a, hr, t, ht => by
    simp only [regularIndex, Bool.and_eq_true, decide_eq_true_eq] at hr
    rcases List.mem_cons.mp ht with rfl | ht
    · exact le_rfl
    · have := regularIndex_le hf l c hr.2 t ht
      omega

theorem minT_le (a : Int) (l : List Int) : ∀ t ∈ a :: l, minT a l ≤ t := by
  intro t ht
  rcases List.mem_cons.mp ht with rfl | ht
  · exact (foldl_min_le _ l).1
  · exact (foldl_min_le _ l).2 t ht

theorem le_maxT (a : Int) (l : List Int) : ∀ t ∈ a :: l, t ≤ maxT a l := by
  intro t ht
  rcases List.mem_cons.mp ht with rfl | ht
  · exact (le_foldl_max _ l).1
  · exact (le_foldl_max _ l).2 t ht

/-- on the grid nothing is lost, moved or invented -/
theorem mem_asfreqGrid {known : List Int → Bool} {freq : Int} (hf : 0 < freq) {x : Series} (hx : (x.map Prod.fst).Nodup)
    (hg : OnGrid freq (x.map Prod.fst)) {L : Int} {e : ℚ} :
    (L, some e) ∈ asfreqGrid known freq x ↔ (L, some e) ∈ x := by
  unfold asfreqGrid
  cases x with
  | nil => simp
  | cons r x =>
    dsimp only
    have hmm := minT_mem r.1 (x.map Prod.fst)
    have hml := minT_le r.1 (x.map Prod.fst)
    have hdiv := hg _ hmm hml
    split_ifs with hc
    · simp only [Bool.and_eq_true, decide_eq_true_eq] at hc
      obtain ⟨⟨-, h2⟩, h3⟩ := hc
      have hmin : minT r.1 (x.map Prod.fst) = r.1 :=
        le_antisymm (hml r.1 List.mem_cons_self) (regularIndex_le hf _ _ h2 _ hmm)
      have hd := hdiv r.1 List.mem_cons_self
      rw [hmin] at hd h3 ⊢
      have h0 : startDay r.1 + binOf (startDay r.1) freq r.1 * freq = r.1 := by
        unfold binOf
        rw [Int.ediv_mul_cancel hd]
        omega
      have hkeys := regularIndex_eq (x.map Prod.fst) r.1 _ (startDay r.1) h0 h2
      rw [← h3, show (r :: x).length = (x.map Prod.fst).length + 1 by simp, ← hkeys]
      have hz : (r.1 :: x.map Prod.fst).zip ((r :: x).map Prod.snd) = r :: x := by
        have := List.zip_unzip (r :: x)
        rw [List.unzip_eq_map] at this
        exact this
      rw [hz]
    · constructor
      · intro h
        rw [List.mem_map] at h
        obtain ⟨t, -, h⟩ := h
        rw [Prod.mk.injEq] at h
        obtain ⟨rfl, h⟩ := h
        exact lookupK_eq_some h
      · intro h
        have hL : L ∈ (r :: x).map Prod.fst := List.mem_map.mpr ⟨_, h, rfl⟩
        refine List.mem_map.mpr ⟨L, List.mem_map.mpr ⟨binOf (startDay (minT r.1 (x.map Prod.fst))) freq L, ?_, ?_⟩, ?_⟩
        · rw [mem_intRange]
          have h1 := binOf_mono (origin := startDay (minT r.1 (x.map Prod.fst))) hf (hml L hL)
          have h2 := binOf_mono (origin := startDay (minT r.1 (x.map Prod.fst))) hf (le_maxT r.1 (x.map Prod.fst) L hL)
          omega
        · unfold binOf
          rw [Int.ediv_mul_cancel (hdiv L hL)]
          omega
        · rw [lookupK_of_mem hx h]

theorem asfreqGrid_labels {known : List Int → Bool} {freq : Int} (x : Series) :
    ∃ origin b0 n, (asfreqGrid known freq x).map Prod.fst = (intRange b0 n).map fun b => origin + b * freq := by
  unfold asfreqGrid
  cases x with
  | nil => exact ⟨0, 0, 0, rfl⟩
  | cons r x =>
    dsimp only
    split_ifs with hc
    · simp only [Bool.and_eq_true, decide_eq_true_eq] at hc
      refine ⟨_, _, _, List.map_fst_zip ?_⟩
      rw [List.length_map, List.length_map, hc.2]
      have : ∀ (a : Int) (n : Nat), (intRange a n).length = n := by
        intro a n
        induction n generalizing a with
        | zero => rfl
        | succ n ih => simp [intRange, ih]
      rw [this]
    · exact ⟨_, _, _, by rw [List.map_map, Function.comp_def]; exact List.map_id _⟩

theorem asfreqGrid_nodup {known : List Int → Bool} {freq : Int} (hf : 0 < freq) (x : Series) :
    ((asfreqGrid known freq x).map Prod.fst).Nodup := by
  obtain ⟨o, b0, n, h⟩ := asfreqGrid_labels (known := known) (freq := freq) x
  rw [h]
  refine List.Nodup.map ?_ ((intRange_lt _ _).imp fun h => ne_of_lt h)
  intro a b hab
  simp only at hab
  have : a * freq = b * freq := by omega
  exact Int.eq_of_mul_eq_mul_right (by omega) this

/-- labels of aggregates stay on the grid of any selection -/
theorem onGrid_select {freq : Int} (hfit : Spec.FitsDays freq) (rows : List InsolRow) {x : List Int}
    (hx : ∀ t ∈ x, t ∈ (aggregationInsol rows freq).map Prod.fst) : OnGrid freq x := by
  have hlab : ∃ m : Int, dayNs ∣ m ∧ ∀ t ∈ x, freq ∣ t - m := by
    cases rows with
    | nil => exact ⟨0, dvd_zero _, fun t ht => by simpa [aggregationInsol] using hx t ht⟩
    | cons r rest =>
      refine ⟨startDay (minT r.t (rest.map (·.t))), Dvd.intro_left _ rfl, fun t ht => ?_⟩
      obtain ⟨y, hy, rfl⟩ := List.mem_map.mp (hx t ht)
      simp only [aggregationInsol, List.mem_map] at hy
      obtain ⟨b, -, rfl⟩ := hy
      exact ⟨b, by dsimp only; ring⟩
  obtain ⟨m, hm, hd⟩ := hlab
  intro a ha _ t ht
  have h1 := hd t ht
  rcases hfit with hfit | hfit
  · have : freq ∣ startDay a := hfit.trans (Dvd.intro_left _ rfl)
    have h2 : freq ∣ t := by
      have := dvd_add h1 (hfit.trans hm)
      rwa [sub_add_cancel] at this
    exact dvd_sub h2 this
  · have h2 : dayNs ∣ a := by
      have := dvd_add (hfit.trans (hd a ha)) hm
      rwa [sub_add_cancel] at this
    have h3 : startDay a = a := by unfold startDay; exact Int.ediv_mul_cancel h2
    rw [h3]
    have := dvd_sub h1 (hd a ha)
    rwa [sub_sub_sub_cancel_right] at this

/-- every aggregate of complete rows with non-negative weights lies between the values of its period -/
theorem aggregate_between {energy insol : Series} {freq : Int} (hf : 0 < freq)
    (hE : ∀ t v, (t, v) ∈ energy → ∃ q, v = some q) (hI : NN insol) {L : Int} {e : ℚ}
    (h : (L, some e) ∈ (aggregateNorm freq energy insol).1) {lo hi : ℚ}
    (hb : ∀ t v, (t, some v) ∈ energy → L ≤ t → t < L + freq → lo ≤ v ∧ v ≤ hi) : lo ≤ e ∧ e ≤ hi := by
  simp only [aggregateNorm, finiteCells, List.mem_map, Prod.mk.injEq] at h
  obtain ⟨⟨L', v⟩, hmem, rfl, hv⟩ := h
  have hfin : v = .fin e := by
    cases v <;> simp [finiteCell] at hv
    rw [hv]
  subst hfin
  have hrow : ∀ r ∈ inPeriod (insolRows energy insol) L' freq,
      L' ≤ r.t ∧ r.t < L' + freq ∧ (r.t, r.energy) ∈ energy ∧ r.insol = lookupK insol r.t := by
    intro r hr
    simp only [inPeriod, List.mem_filter, decide_eq_true_eq, insolRows, List.mem_map] at hr
    obtain ⟨⟨x, hx, rfl⟩, h1⟩ := hr
    exact ⟨h1.1, h1.2, hx, rfl⟩
  have hg : InsolGuard (inPeriod (insolRows energy insol) L' freq) := by
    intro r hr he
    obtain ⟨-, -, hm, -⟩ := hrow r hr
    obtain ⟨q, hq⟩ := hE _ _ hm
    rw [he] at hq
    cases hq
  have hw : ∀ r ∈ inPeriod (insolRows energy insol) L' freq, ∀ w, r.insol = some w → 0 ≤ w := by
    intro r hr w hw
    obtain ⟨-, -, -, hm⟩ := hrow r hr
    rw [hm] at hw
    exact hI.lookup _ _ hw
  have hp : ∀ x ∈ pairs (inPeriod (insolRows energy insol) L' freq),
      ∃ r ∈ inPeriod (insolRows energy insol) L' freq, r.insol = some x.1 ∧ r.energy = some x.2 := by
    intro x hx
    simp only [pairs, List.mem_filterMap] at hx
    obtain ⟨r, hr, hx⟩ := hx
    refine ⟨r, hr, ?_⟩
    rcases r with ⟨t, _ | w, _ | e⟩ <;> simp at hx ⊢
    subst hx; simp
  have hpos : 0 < totalWeight (pairs (inPeriod (insolRows energy insol) L' freq)) := by
    have h0 : 0 ≤ totalWeight (pairs (inPeriod (insolRows energy insol) L' freq)) := by
      unfold totalWeight
      refine List.sum_nonneg ?_
      intro w hw'
      obtain ⟨x, hx, rfl⟩ := List.mem_map.mp hw'
      obtain ⟨r, hr, a, -⟩ := hp x hx
      exact hw r hr _ a
    rcases h0.lt_or_eq with h0 | h0
    · exact h0
    · exfalso
      have hv := mem_aggregationInsol hf hmem
      rw [(sums_of_guard hg).1, (sums_of_guard hg).2, ← h0] at hv
      unfold Flt.ofDiv at hv
      simp only [if_true] at hv
      split_ifs at hv
  obtain ⟨q, hq, h1, h2⟩ := C03_missing_energy_partial hf hmem hg hw hpos
  cases hq
  constructor
  · refine h1 lo fun p hp' => ?_
    obtain ⟨r, hr, -, b⟩ := hp p hp'
    obtain ⟨l1, l2, hm, -⟩ := hrow r hr
    rw [b] at hm
    exact (hb _ _ hm l1 l2).1
  · refine h2 hi fun p hp' => ?_
    obtain ⟨r, hr, -, b⟩ := hp p hp'
    obtain ⟨l1, l2, hm, -⟩ := hrow r hr
    rw [b] at hm
    exact (hb _ _ hm l1 l2).2

theorem NN.select {x : Series} (h : NN x) (m : BMask) : NN (Chains.select x m) :=
  fun t v hv => h t v (List.mem_filter.mp hv).1

/-- the filters of the aggregates leave the filter of the samples alone -/
theorem aggregatedFilter_mask {env : Env Loc YoYResult σ} {s : TA Loc YoYResult σ} (agg : Series) (m : Option BMask)
    (hP : (s.out c).mask = m) : KeepsAt (fun u => (u.out c).mask = m) s (aggregatedFilter env agg c) := by
  unfold aggregatedFilter
  refine keepsAt_self ?_
  refine keepsAt_bind_ro hP (readOnly_attr _) fun insol _ => ?_
  refine keepsAt_bind_ro hP (readOnly_component _ _ (readOnly_pure _) _) fun c1 _ => ?_
  refine keepsAt_bind_ro hP (readOnly_component _ _ (readOnly_pure _) _) fun c2 _ => ?_
  refine keepsAt_bind_ro hP (readOnly_component _ _ (readOnly_pure _) _) fun c3 _ => ?_
  refine keepsAt_bind_ro hP (readOnly_component _ _ (readOnly_pure _) _) fun c4 _ => ?_
  refine keepsAt_bind (adHoc_keeps hP (fun d _ _ => by cases c <;> exact hP) _) fun c5 u _ hu => ?_
  cases c <;> exact hu

/-- what filtering and aggregation store: the aggregates that the aggregated filter accepts -/
theorem finish_accepted {energy insol : Series} {s s' : TA Loc YoYResult σ} (hf : 0 < k.aggFreq)
    (hfit : Spec.FitsDays k.aggFreq) (h : finish (degradationEnv n k rest) energy insol c s = (.ok (), s')) :
    ∃ s1 mask maskAgg perf, filter (degradationEnv n k rest) energy c s = (.ok (), s1) ∧ (s1.out c).mask = some mask ∧
      (s'.out c).mask = some mask ∧ (s'.out c).maskAgg = some maskAgg ∧ (s'.out c).performance = some perf ∧ (perf.map Prod.fst).Nodup ∧
      (∃ origin b0 m, perf.map Prod.fst = (intRange b0 m).map fun b => origin + b * k.aggFreq) ∧
      ∀ L e, (L, some e) ∈ perf ↔
        (L, some e) ∈ (aggregateNorm k.aggFreq (select energy mask) (select insol mask)).1 ∧ verdictAt maskAgg L = true := by
  unfold finish at h
  replace h := bind_ok.mp h
  obtain ⟨_, s1, h1, h⟩ := h
  replace h := bind_ok.mp h
  obtain ⟨_, _, h0, h⟩ := h
  cases h0
  replace h := bind_ok.mp h
  obtain ⟨mask, _, h2, h⟩ := h
  obtain ⟨em, rfl⟩ := attr_ok h2
  replace h := bind_ok.mp h
  obtain ⟨xe, _, he, h⟩ := h
  obtain ⟨ge, rfl⟩ := call_ok he
  obtain rfl := boolIndex_ok ge
  replace h := bind_ok.mp h
  obtain ⟨xi, _, hi, h⟩ := h
  obtain ⟨gi, rfl⟩ := call_ok hi
  obtain rfl := boolIndex_ok gi
  replace h := bind_ok.mp h
  obtain ⟨r, _, h3, h⟩ := h
  cases h3
  replace h := bind_ok.mp h
  obtain ⟨_, s2, h4, h⟩ := h
  replace h := bind_ok.mp h
  obtain ⟨_, s3, h5, h⟩ := h
  replace h := bind_ok.mp h
  obtain ⟨_, _, h0, h⟩ := h
  cases h0
  replace h := bind_ok.mp h
  obtain ⟨maskAgg, _, h6, h⟩ := h
  obtain ⟨ea, rfl⟩ := attr_ok h6
  replace h := bind_ok.mp h
  obtain ⟨xp, _, hp', h⟩ := h
  obtain ⟨gp, rfl⟩ := call_ok hp'
  obtain rfl := boolIndex_ok gp
  replace h := bind_ok.mp h
  obtain ⟨_, s4, h7, h⟩ := h
  replace h := bind_ok.mp h
  obtain ⟨xq, _, hq', h⟩ := h
  obtain ⟨gq, rfl⟩ := call_ok hq'
  obtain rfl := boolIndex_ok gq
  cases h7
  cases h
  refine ⟨_, mask, maskAgg,
    asfreqGrid k.known k.aggFreq (select (aggregateNorm k.aggFreq (select energy mask) (select insol mask)).1 maskAgg),
    h1, em, ?_, ?_, ?_, asfreqGrid_nodup hf _, asfreqGrid_labels _, ?_⟩
  · have hs : (s2.out c).mask = some mask := by cases h4; rw [← em]; cases c <;> rfl
    have := aggregatedFilter_mask (env := degradationEnv n k rest) (s := s2)
      (aggregateNorm k.aggFreq (select energy mask) (select insol mask)).1 (some mask) hs
    unfold KeepsAt at this
    rw [h5] at this
    cases c <;> exact this
  · rw [← ea]; cases c <;> rfl
  · cases c <;> rfl
  · intro L e
    have hkeys : ((aggregateNorm k.aggFreq (select energy mask) (select insol mask)).1).map Prod.fst =
        (aggregationInsol (insolRows (select energy mask) (select insol mask)) k.aggFreq).map Prod.fst := by
      unfold aggregateNorm finiteCells
      rw [List.map_map]
      rfl
    have hsub : List.Sublist
        ((select (aggregateNorm k.aggFreq (select energy mask) (select insol mask)).1 maskAgg).map Prod.fst)
        (((aggregateNorm k.aggFreq (select energy mask) (select insol mask)).1).map Prod.fst) :=
      List.Sublist.map _ List.filter_sublist
    rw [hkeys] at hsub
    rw [mem_asfreqGrid hf (hsub.nodup ((C110_chronological hf).imp fun h => ne_of_lt h))
      (onGrid_select hfit _ fun t ht => hsub.subset ht)]
    unfold select
    rw [List.mem_filter]

/-- filtering and aggregation: every value of the performance belongs to a kept period and lies between the accepted
normalized energies of that period -/
theorem finish_performance {energy insol : Series} {s s' : TA Loc YoYResult σ} (hf : 0 < k.aggFreq)
    (hfit : Spec.FitsDays k.aggFreq)
    (hE : (energy.map Prod.fst).Nodup) (hI : NN insol) (hn : s.params.items.has "normalized_filter" = true)
    (h : finish (degradationEnv n k rest) energy insol c s = (.ok (), s')) :
    ∃ mask maskAgg perf, (s'.out c).mask = some mask ∧ (s'.out c).maskAgg = some maskAgg ∧
      (s'.out c).performance = some perf ∧ (perf.map Prod.fst).Nodup ∧
      ∀ L e, (L, some e) ∈ perf → verdictAt maskAgg L = true ∧ ∀ lo hi,
        (∀ t v, (t, some v) ∈ energy → verdictAt mask t = true → L ≤ t → t < L + k.aggFreq → lo ≤ v ∧ v ≤ hi) →
        lo ≤ e ∧ e ≤ hi := by
  obtain ⟨s1, mask, maskAgg, perf, h1, em, m1, m2, hp, hnd, -, hacc⟩ := finish_accepted hf hfit h
  refine ⟨mask, maskAgg, perf, m1, m2, hp, hnd, ?_⟩
  intro L e he
  refine ⟨((hacc L e).mp he).2, ?_⟩
  intro lo hi hb
  refine aggregate_between hf (fun t v hv => (selected_finite hE hn h1 em hv).2) (NN.select hI mask) ((hacc L e).mp he).1 ?_
  intro t v hv
  exact hb t v (selected_finite hE hn h1 em hv).1 (List.mem_filter.mp hv).2

end Verif.Chains
