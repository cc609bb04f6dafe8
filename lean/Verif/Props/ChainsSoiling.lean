import Verif.Lemmas.ChainsSoiling
import Verif.Props.SrrRecover

/-! # C122: a soiling analysis of measurements recovers the losses of the system (rdtools/analysis_chains.py) -/

namespace Verif.Chains
open Verif.Spec Verif.Linear
variable {Loc σ : Type} {n : Numeric} {k : Keywords} {c : Case}

/-- **C122 (insolation).** In every analysis that gets through its preprocessing the stored insolation has the times of the stored
performance. Where there is a performance there is an insolation: that of the accepted samples of the period, which is the
weight in the performance. Every stored insolation is that of the accepted samples of its period. -/
theorem C122_insolation {rest : Env Loc YoYResult σ} {s s' : TA Loc YoYResult σ}
    (h : preprocess (degradationEnv n k rest) c s = (.ok (), s')) (hagg : 0 < k.aggFreq) (hfit : Spec.FitsDays k.aggFreq) :
    ∃ g P N I mask perf insol, Spec.irradiance s' c = some g ∧ Spec.modelPower n s' c = some P ∧
      Normalized n s.pvEnergy P g s.powerExpected.isNone N I ∧ (s'.out c).mask = some mask ∧
      (s'.out c).performance = some perf ∧ (s'.out c).insolation = some insol ∧ insol.map Prod.fst = perf.map Prod.fst ∧
      (∀ L e, (L, some e) ∈ perf → (L, some (Spec.insolationIn N I mask L k.aggFreq)) ∈ insol ∧
        Spec.insolationIn N I mask L k.aggFreq ≠ 0 ∧
        e * Spec.insolationIn N I mask L k.aggFreq = Spec.weightedIn N I mask L k.aggFreq) ∧
      ∀ L x, (L, some x) ∈ insol → x = Spec.insolationIn N I mask L k.aggFreq := by
  obtain ⟨u, N, I, g, P, h1, -, h3, h4, h5⟩ := preprocess_normalized h
  obtain ⟨hk, hs⟩ := normalized_index h5
  have hnd : (N.map Prod.fst).Nodup := hs.imp fun h => ne_of_lt h
  obtain ⟨mask, maskAgg, e1, e2, e3, e4⟩ := finish_stored h1
  obtain ⟨_, mask', maskAgg', perf, -, -, e1', e2', e3', -, -, e6⟩ := finish_accepted hagg hfit h1
  rw [e1] at e1'; cases e1'
  rw [e2] at e2'; cases e2'
  rw [e3] at e3'; cases e3'
  set A := aggregateNorm k.aggFreq (select N mask) (select I mask) with hA
  have hAk : A.1.map Prod.fst = A.2.map Prod.fst := aggregateNorm_keys (select_keys hk mask)
  have hA1 : A.1.map Prod.fst = (aggregationInsol (insolRows (select N mask) (select I mask)) k.aggFreq).map Prod.fst := by
    rw [hA]
    unfold aggregateNorm finiteCells
    rw [List.map_map]
    rfl
  have hval : ∀ L v, (L, v) ∈ A.2 → v = some (Spec.insolationIn N I mask L k.aggFreq) := by
    intro L v hv
    rw [mem_resampleSum hagg hv, insolation_selected hk hnd]
  have hsub : List.Sublist ((select A.2 maskAgg).map Prod.fst)
      ((aggregationInsol (insolRows (select N mask) (select I mask)) k.aggFreq).map Prod.fst) := by
    rw [← hA1, hAk]
    exact List.Sublist.map _ List.filter_sublist
  have hmem : ∀ L x, (L, some x) ∈ asfreqGrid k.known k.aggFreq (select A.2 maskAgg) ↔
      (L, some x) ∈ A.2 ∧ verdictAt maskAgg L = true := by
    intro L x
    rw [mem_asfreqGrid hagg (hsub.nodup ((C110_chronological hagg).imp fun h => ne_of_lt h))
      (onGrid_select hfit _ fun t ht => hsub.subset ht)]
    unfold select
    rw [List.mem_filter]
  refine ⟨g, P, N, I, mask, _, _, h3, h4, h5, e1, e3, e4, (asfreqGrid_keys (select_keys hAk maskAgg)).symm, ?_, ?_⟩
  · intro L e he
    obtain ⟨he, hv⟩ := (e6 L e).mp he
    have hL : L ∈ A.2.map Prod.fst := by rw [← hAk]; exact List.mem_map.mpr ⟨_, he, rfl⟩
    obtain ⟨⟨L', v⟩, hx, rfl⟩ := List.mem_map.mp hL
    rw [hval _ _ hx] at hx
    refine ⟨(hmem _ _).mpr ⟨hx, hv⟩, ?_⟩
    rw [hA] at he
    simp only [aggregateNorm, finiteCells, List.mem_map, Prod.mk.injEq] at he
    obtain ⟨⟨L'', y⟩, hy, e', hb⟩ := he
    simp only at e'
    subst e'
    have hy' : y = .fin e := fin_of_finiteCell hb
    subst hy'
    have hval := mem_aggregationInsol hagg hy
    rw [insolation_sum, weighted_sum, eq_comm, ofDiv_fin] at hval
    exact ⟨hval.1, by rw [hval.2, div_mul_cancel₀ _ hval.1]⟩
  · intro L x hx
    have := hval _ _ ((hmem L x).mp hx).1
    exact Option.some.inj this

/-- the energy of the samples accepted on the `i`-th stored day is `w i` times that of the model -/
def Spec.Follows (n : Numeric) (accepted : Int → Prop) (energy P perf : Series) (w : Nat → ℚ) : Prop :=
  ∀ i L, (perf[i]?).map Prod.fst = some L → ∀ t e m, Spec.Sample n energy P t e m → accepted t → L ≤ t → t < L + dayNs →
    e = m * w i

/-- the record that a soiling analysis gets, of a system that follows its model up to soiling: daily aggregation, days without
gaps, losses that grow by the same amount every day between the cleanings `D`, which the threshold detects -/
structure Spec.SoiledRecord (n : Numeric) (k : Keywords) (c : Case) (s s' : TA Loc YoYResult SrrOut) (a : SrrArgs)
    (P perf : Series) (w : Nat → ℚ) (D : List Nat) (h L : Nat) (m F : ℚ) : Prop where
  daily : s'.aggDaily = true
  freq : k.aggFreq = dayNs
  normalized : s.params.items.has "normalized_filter" = true
  model : Spec.modelPower n s' c = some P
  irradiance : ∀ g, Spec.irradiance s' c = some g → ∀ t v, (t, some v) ∈ g → 0 ≤ v
  fine : Spec.FineEnough s.pvEnergy P
  sampling : ∀ f, n.freq (s.pvEnergy.map Prod.fst) = some f → 0 ≤ f
  stored : (s'.out c).performance = some perf
  complete : ∀ r ∈ perf, ∃ x, r.2 = some x ∧ 0 < x
  long : 3 ≤ perf.length
  precip : ∀ p, a.precip = some p → isDaily p.index = true
  follows : Spec.Follows n (Spec.Accepted s' c) s.pvEnergy P perf w
  pos : ∀ i < perf.length, 0 < w i
  level : FirstYear a.daily.recenter w perf.length F
  unit : a.daily.recenter = true ∨ s.powerExpected ≠ none ∨ n.rated ≠ none
  scale : a.daily.dayScale = 2 * h + 1
  shift : a.daily.criterion = .shift
  linear : SoilsLinearly w D perf.length m
  spaced : Spaced D perf.length L
  scale_le : a.daily.dayScale ≤ L
  length_lt : a.result.minIntervalLength < L
  threshold : ThresholdFits a.daily w D h m F
  trim : a.result.trim = false
  length_pos : 1 ≤ a.result.minIntervalLength
  slope_pos : 0 < a.result.maxRelSlopeError
  step : m < a.result.maxNegativeStep * F
  draws : a.draws ≠ []
  conf0 : 0 ≤ a.conf
  conf1 : a.conf ≤ 100
  exceed0 : 0 ≤ a.exceed
  exceed1 : a.exceed ≤ 100

variable {a : String → SrrArgs} {rest : Env Loc YoYResult SrrOut} {s s' : TA Loc YoYResult SrrOut}

theorem isMedian_scale {l : List ℚ} {m q : ℚ} (hq : q ≠ 0) (h : IsMedian l m) : IsMedian (l.map fun x => x / q) (m / q) := by
  rw [isMedian_iff] at h ⊢
  have h1 := median_mul (inv_ne_zero hq) l
  rw [h] at h1
  have : (l.map fun x => x / q) = l.map fun x => q⁻¹ * x := List.map_congr_left fun x _ => by rw [div_eq_inv_mul]
  rw [this, h1]
  simp [div_eq_inv_mul]

theorem dayStepped_range (origin b0 : Int) (m : Nat) :
    dayStepped ((intRange b0 m).map fun b => origin + b * dayNs) = true := by
  induction m generalizing b0 with
  | zero => rfl
  | succ m ih =>
    cases m with
    | zero => rfl
    | succ m =>
      have := ih (b0 + 1)
      simp only [intRange, List.map_cons, dayStepped, Bool.and_eq_true, decide_eq_true_eq] at this ⊢
      refine ⟨?_, this⟩
      ring

/-- what the soiling analysis is given: the ratios to the model, in units of one positive number -/
theorem soiled_values {kw : String} {P perf : Series} {w : Nat → ℚ} {D : List Nat} {h L : Nat} {m F : ℚ}
    (hp : preprocess (soilingEnv n k a rest) c s = (.ok (), s')) (H : Spec.SoiledRecord n k c s s' (a kw) P perf w D h L m F) :
    ∃ insol q, (s'.out c).insolation = some insol ∧ insol.map Prod.fst = perf.map Prod.fst ∧ 0 < q ∧
      ((a kw).daily.recenter = false → q = 1) ∧ HasValues perf (fun i => w i / q) perf.length ∧
      srrInit perf insol (a kw).precip = .ok () ∧ (perf.map fun x => (lookupK insol x.1).getD 0).sum ≠ 0 := by
  have hagg : 0 < k.aggFreq := by rw [H.freq]; exact dayNs_pos
  have hfit : Spec.FitsDays k.aggFreq := by rw [H.freq]; exact Or.inl dvd_rfl
  obtain ⟨perf', q, e1, -, hq, hq1, e3⟩ := C113_performance hp H.normalized hagg hfit H.model H.irradiance H.fine H.sampling
  rw [H.stored] at e1; cases e1
  obtain ⟨g, P', N, I, mask, perf', insol, f1, f2, f3, f4, f5, f6, f7, f8, f9⟩ := C122_insolation hp hagg hfit
  rw [H.stored] at f5; cases f5
  rw [H.model] at f2; cases f2
  have hNN : NN I := (normalized_samples f3 H.fine H.sampling (H.irradiance g f1)).1
  have hval : ∀ i (hi : i < perf.length), ∃ x, perf[i].2 = some x ∧ 0 < x ∧ q * x = w i := by
    intro i hi
    obtain ⟨x, hx, hx0⟩ := H.complete _ (List.getElem_mem hi)
    refine ⟨x, hx, hx0, ?_⟩
    have hm : (perf[i].1, some x) ∈ perf := by rw [← hx]; exact List.getElem_mem hi
    have := e3 perf[i].1 x hm (w i) (w i) fun t e m hs hcd h1 h2 => by
      rw [H.freq] at h2
      have hm0 : m ≠ 0 := hs.2.1
      have := H.follows i perf[i].1 (by rw [List.getElem?_eq_getElem hi]; rfl) t e m hs hcd.1 h1 h2
      rw [this, mul_div_cancel_left₀ _ hm0]
      exact ⟨le_rfl, le_rfl⟩
    exact le_antisymm this.2 this.1
  have hlen : 0 < perf.length := by have := H.long; omega
  have hq0 : 0 < q := by
    obtain ⟨x, -, hx, e⟩ := hval 0 hlen
    have := H.pos 0 hlen
    rw [← e] at this
    exact (pos_iff_pos_of_mul_pos this).mpr hx
  refine ⟨insol, q, f6, f7, hq0, ?_, ?_, ?_, ?_⟩
  · intro hr
    rcases H.unit with h | h
    · rw [hr] at h; cases h
    · exact hq1 h
  · unfold HasValues
    refine List.ext_getElem (by simp) fun i h1 h2 => ?_
    rw [List.length_map] at h1
    obtain ⟨x, hx, -, e⟩ := hval i h1
    simp only [List.getElem_map, List.getElem_range]
    rw [hx, ← e, mul_div_cancel_left₀ _ hq]
  · have hday : isDaily (perf.map Prod.fst) = true := by
      obtain ⟨u, N', I', g', P', h1, -⟩ := preprocess_normalized hp
      obtain ⟨_, _, _, perf', -, -, -, -, e3', -, ⟨o, b0, m', e5⟩, -⟩ := finish_accepted hagg hfit h1
      rw [H.stored] at e3'; cases e3'
      unfold isDaily
      rw [Bool.and_eq_true, decide_eq_true_eq]
      refine ⟨by rw [List.length_map]; exact H.long, ?_⟩
      rw [e5, H.freq]
      exact dayStepped_range o b0 m'
    unfold srrInit
    have i1 : isDaily perf.index = true := hday
    have i2 : isDaily insol.index = true := by
      have : insol.index = insol.map Prod.fst := rfl
      rw [this, f7]; exact hday
    rw [i1, i2]
    simp only [Bool.true_eq_false, if_false]
    cases hpr : (a kw).precip with
    | none => rfl
    | some p =>
      simp only
      rw [H.precip p hpr]
      rfl
  · refine ne_of_gt ?_
    have hpos : ∀ r ∈ perf, 0 < (lookupK insol r.1).getD 0 := by
      intro r hr
      obtain ⟨L, v⟩ := r
      obtain ⟨x, hx, -⟩ := H.complete _ hr
      simp only at hx
      subst hx
      obtain ⟨g1, g2, -⟩ := f8 L x hr
      have hnd : (insol.map Prod.fst).Nodup := by
        rw [f7]
        obtain ⟨u, N', I', g', P', h1, -⟩ := preprocess_normalized hp
        obtain ⟨_, _, _, perf', -, -, -, -, e3', hn, -⟩ := finish_accepted hagg hfit h1
        rw [H.stored] at e3'; cases e3'
        exact hn
      rw [lookupK_of_mem hnd g1]
      simp only [Option.getD_some]
      refine lt_of_le_of_ne ?_ (Ne.symm g2)
      unfold Spec.insolationIn
      refine List.sum_nonneg fun y hy => ?_
      obtain ⟨r, -, hr⟩ := List.mem_filterMap.mp hy
      exact hNN _ _ (lookupK_eq_some hr)
    cases hpf : perf with
    | nil => rw [hpf] at hlen; cases hlen
    | cons r l =>
      rw [List.map_cons, List.sum_cons]
      have h1 := hpos r (by rw [hpf]; exact List.mem_cons_self)
      have h2 : 0 ≤ (l.map fun x => (lookupK insol x.1).getD 0).sum := by
        refine List.sum_nonneg fun y hy => ?_
        obtain ⟨r', hr', rfl⟩ := List.mem_map.mp hy
        exact (hpos r' (by rw [hpf]; exact List.mem_cons_of_mem _ hr')).le
      linarith

theorem firstYear_scale {rec : Bool} {w : Nat → ℚ} {N : Nat} {F q : ℚ} (hq : q ≠ 0) (h1 : rec = false → q = 1)
    (h : FirstYear rec w N F) : FirstYear rec (fun i => w i / q) N (F / q) := by
  unfold FirstYear at h ⊢
  cases rec with
  | false => simp only [Bool.false_eq_true, if_false] at h ⊢; rw [h, h1 rfl, div_one]
  | true =>
    simp only [if_true] at h ⊢
    have := isMedian_scale hq h
    rwa [List.map_map] at this

theorem restores_scale {w : Nat → ℚ} {D : List Nat} {h : Nat} {J q : ℚ} (hq : 0 < q) (H : Restores w D h J) :
    Restores (fun i => w i / q) D h (J / q) := by
  intro d hd
  have := H d hd
  simp only
  rw [← add_div]
  exact div_lt_div_of_pos_right this hq

theorem thresholdFits_scale {o : DailyOpts} {w : Nat → ℚ} {D : List Nat} {h : Nat} {m F q : ℚ} (hq : 0 < q)
    (H : ThresholdFits o w D h m F) : ThresholdFits o (fun i => w i / q) D h (m / q) (F / q) := by
  rcases H with ⟨c, h1, h2, h3⟩ | ⟨h1, h2, h3, h4⟩
  · refine Or.inl ⟨c, h1, h2, ?_⟩
    rw [← mul_div_assoc]
    exact restores_scale hq h3
  · refine Or.inr ⟨h1, h2, h3, ?_⟩
    rw [← mul_div_assoc]
    exact restores_scale hq h4

theorem soilsLinearly_scale {w : Nat → ℚ} {D : List Nat} {N : Nat} {m q : ℚ} (hq : 0 < q) (H : SoilsLinearly w D N m) :
    SoilsLinearly (fun i => w i / q) D N (m / q) := by
  obtain ⟨rate, h1, h2⟩ := H
  refine ⟨fun i => rate i / q, fun i => ⟨div_nonneg (h1 i).1 hq.le, div_le_div_of_nonneg_right (h1 i).2 hq.le⟩, ?_⟩
  intro s i hi hc
  simp only
  rw [h2 s i hi hc]
  ring

/-- the analysis after its preprocessing -/
theorem analysis_soiling {yoyKw srrKw : String} {perf insol : Series} {out : SrrOut}
    (hp : preprocess (soilingEnv n k a rest) c s = (.ok (), s')) (hd : s'.aggDaily = true)
    (h1 : (s'.out c).performance = some perf) (h2 : (s'.out c).insolation = some insol)
    (h3 : soilingSrr (a srrKw).ord (a srrKw).zs (a srrKw).daily (a srrKw).result (a srrKw).method (a srrKw).exceed
      (a srrKw).conf (a srrKw).draws perf insol (a srrKw).precip = .ok out) :
    analysis (soilingEnv n k a rest) c ["srr_soiling"] yoyKw srrKw s =
      (.ok (), s'.modifyOut c fun o => { o with results := some ⟨none, some out⟩ }) := by
  unfold analysis
  refine bind_ok.mpr ⟨(), s', hp, ?_⟩
  refine bind_ok.mpr ⟨s', s', rfl, ?_⟩
  refine bind_ok.mpr ⟨perf, s', by rw [h1]; rfl, ?_⟩
  refine bind_ok.mpr ⟨insol, s', by rw [h2]; rfl, ?_⟩
  refine bind_ok.mpr ⟨none, s', ?_, ?_⟩
  · unfold requested
    rw [if_neg (by decide)]
    rfl
  refine bind_ok.mpr ⟨some out, s', ?_, rfl⟩
  unfold requested srrSoiling
  rw [if_pos (by decide), if_pos hd]
  have : (soilingEnv n k a rest).srr srrKw perf insol = .ok out := h3
  rw [this]
  rfl

/-- **C122 (perfect cleaning).** Let the measured energy of the accepted samples be the energy of the model times a ratio that falls by the same amount every
day between cleanings, each of which the threshold detects. Then an analysis with measured or clear-sky irradiance, whatever
filters take part, that keeps every day of the record stores with the method `perfect_clean`: the same profile in every realization,
one minus the loss since the last cleaning relative to the level `F` of the first year; a soiling ratio that is its
mean weighted with the insolation of the accepted samples; and confidence limits equal to it. A wrong or missing nameplate power
has no influence if the analysis recenters. -/
theorem C122_perfect_clean {yoyKw srrKw : String} {P perf : Series} {w : Nat → ℚ} {D : List Nat} {h L : Nat} {m F : ℚ}
    (hp : preprocess (soilingEnv n k a rest) c s = (.ok (), s'))
    (H : Spec.SoiledRecord n k c s s' (a srrKw) P perf w D h L m F) (hmeth : (a srrKw).method = .perfectClean)
    (hord : ∀ l, ((a srrKw).ord l).Perm l) (hz : ∀ p, 0 ≤ (a srrKw).zs p) :
    ∃ insol out p, (s'.out c).insolation = some insol ∧
      analysis (soilingEnv n k a rest) c ["srr_soiling"] yoyKw srrKw s =
        (.ok (), s'.modifyOut c fun o => { o with results := some ⟨none, some out⟩ }) ∧
      out.profiles = (a srrKw).draws.map (fun _ => p) ∧ p.map Prod.fst = perf.map Prod.fst ∧
      (∀ i s, i < perf.length → CleanedLast D s i → (p[i]?).map Prod.snd = some (some (1 - (w s - w i) / F))) ∧
      out.ratio * (p.map fun x => (lookupK insol x.1).getD 0).sum =
        (p.map fun x => x.2.getD 0 * (lookupK insol x.1).getD 0).sum ∧
      out.low = out.ratio ∧ out.high = out.ratio ∧ out.exceedance = out.ratio ∧
      ∀ i ∈ out.table, ∃ s e, s ≤ e ∧ e < perf.length ∧ CleanedLast D s e ∧ (e + 1 = perf.length ∨ e + 1 ∈ D) ∧
        (perf[s]?).map Prod.fst = some i.start ∧ (perf[e]?).map Prod.fst = some i.stop ∧ i.valid = true ∧
        i.slope * ((e : ℚ) - s) = (w e - w s) / F ∧ i.low = i.slope ∧ i.high = i.slope ∧
        i.infStart = w s / F ∧ i.infEnd = w e / F := by
  obtain ⟨insol, q, e1, -, hq, hq1, hv, hinit, hins⟩ := soiled_values (kw := srrKw) hp H
  obtain ⟨out, p, g1, g2, g3, g4, g5, g6, g7, g8, g9⟩ := C117_perfect_clean hord hz hinit hv
    (fun i hi => div_pos (H.pos i hi) hq) (firstYear_scale hq.ne' hq1 H.level) H.scale H.shift (soilsLinearly_scale hq H.linear)
    H.spaced H.scale_le H.length_lt (thresholdFits_scale hq H.threshold) H.trim H.length_pos H.slope_pos
    (by rw [← mul_div_assoc]; exact div_lt_div_of_pos_right H.step hq) H.draws H.conf0 H.conf1 H.exceed0 H.exceed1 hins
  rw [← hmeth] at g1
  refine ⟨insol, out, p, e1, analysis_soiling hp H.daily H.stored e1 g1, g2, g3, ?_, g5, g6, g7, g8, ?_⟩
  · intro i s hi hc
    rw [g4 i s hi hc, ← sub_div, div_div_div_cancel_right₀ hq.ne']
  · intro i hi
    obtain ⟨s, e, b1, b2, b3, b4, b5, b6, b7, b8, b9, b10, b11, b12⟩ := g9 i hi
    refine ⟨s, e, b1, b2, b3, b4, b5, b6, b7, ?_, b9, b10, ?_, ?_⟩
    · rw [b8, ← sub_div, div_div_div_cancel_right₀ hq.ne']
    · rw [b11, div_div_div_cancel_right₀ hq.ne']
    · rw [b12, div_div_div_cancel_right₀ hq.ne']

/-- **C122 (half-normal cleaning).** The same for the default method `half_norm_clean` if every cleaning, and the first day, bring
the system to the level `F`: every realization gives the ratio itself, relative to `F`, on every day. -/
theorem C122_half_norm {yoyKw srrKw : String} {P perf : Series} {w : Nat → ℚ} {D : List Nat} {h L : Nat} {m F : ℚ}
    (hp : preprocess (soilingEnv n k a rest) c s = (.ok (), s'))
    (H : Spec.SoiledRecord n k c s s' (a srrKw) P perf w D h L m F) (hmeth : (a srrKw).method = .halfNorm)
    (hclean : ∀ s, s = 0 ∨ s ∈ D → w s = F) (hord : ∀ l, ((a srrKw).ord l).Perm l) (hz : ∀ p, 0 ≤ (a srrKw).zs p) :
    ∃ insol out p, (s'.out c).insolation = some insol ∧
      analysis (soilingEnv n k a rest) c ["srr_soiling"] yoyKw srrKw s =
        (.ok (), s'.modifyOut c fun o => { o with results := some ⟨none, some out⟩ }) ∧
      out.profiles = (a srrKw).draws.map (fun _ => p) ∧ p.map Prod.fst = perf.map Prod.fst ∧
      (∀ i < perf.length, (p[i]?).map Prod.snd = some (some (w i / F))) ∧
      out.ratio * (p.map fun x => (lookupK insol x.1).getD 0).sum =
        (p.map fun x => x.2.getD 0 * (lookupK insol x.1).getD 0).sum ∧
      out.low = out.ratio ∧ out.high = out.ratio ∧ out.exceedance = out.ratio := by
  obtain ⟨insol, q, e1, -, hq, hq1, hv, hinit, hins⟩ := soiled_values (kw := srrKw) hp H
  obtain ⟨out, p, g1, g2, g3, g4, g5, g6, g7, g8, g9⟩ := C117_half_norm hord hz hinit hv
    (fun i hi => div_pos (H.pos i hi) hq) (firstYear_scale hq.ne' hq1 H.level) H.scale H.shift (soilsLinearly_scale hq H.linear)
    (fun s hs => by rw [hclean s hs])
    H.spaced H.scale_le H.length_lt (thresholdFits_scale hq H.threshold) H.trim H.length_pos H.slope_pos
    (by rw [← mul_div_assoc]; exact div_lt_div_of_pos_right H.step hq) H.draws H.conf0 H.conf1 H.exceed0 H.exceed1 hins
  rw [← hmeth] at g1
  refine ⟨insol, out, p, e1, analysis_soiling hp H.daily H.stored e1 g1, g2, g3, ?_, g5, g6, g7, g8⟩
  intro i hi
  rw [g4 i hi, div_div_div_cancel_right₀ hq.ne']

/-! ## example -/

/-- twelve hours -/
def exHalfDay : Int := 12 * (3600 * 1000000000)

/-- two readings a day for eight days, of a system that loses 10 % a day and is cleaned before the fifth -/
def exSoiled : Args where
  pv := (intRange 0 16).map fun i => (i * exHalfDay, some (SrrEx.saw 4 (1/10) (i / 2).toNat))
  isPower := true
  poa := some ((intRange 0 16).map fun i => (i * exHalfDay, some 1000))
  tcell := some ((intRange 0 16).map fun i => (i * exHalfDay, some 25))
  tamb := none
  expected := none
  aggDaily := true
  interpFreq := none
  maxTd := none
  indexFreq := some exHalfDay

/-- two realizations -/
def exSrrArgs (m : SrrMethod) : SrrArgs where
  ord := id
  zs _ := 1
  daily := SrrEx.opts
  result := SrrEx.res
  method := m
  exceed := 95
  conf := 684/10
  draws := [SrrEx.draw0, SrrEx.draw0]
  precip := none

/-- the default filters but for the clipping, and with a wide window filter -/
def exSoilEnv (m : SrrMethod) : Env Unit YoYResult SrrOut :=
  soilingEnv { exPlate with freq := fun _ => some exHalfDay }
    { exKeywords with aggFreq := dayNs, twoWay := fun _ => (7 * dayNs, 1) } (fun _ => exSrrArgs m)
    { exNothing with srr := fun _ _ _ => .error .keyError }

/-- the object before and after the preprocessing -/
def exSoilRun (m : SrrMethod) : Option (TA Unit YoYResult SrrOut × TA Unit YoYResult SrrOut) :=
  (construct exSoiled).toOption.bind fun s0 =>
    let s := { s0 with params := { s0.params with items := s0.params.items.filter fun x => decide (x.1 ≠ "clip_filter") } }
    match preprocess (exSoilEnv m) .sensor s with
    | (.ok (), s') => some (s, s')
    | _ => none

/-- the model power of the example -/
def exSoilModel : Series := exSoiled.pv.map fun r => (r.1, some 1)

/-- energies of the samples at the same time -/
def exSamples (f : Int) (energy P : Series) : List (Int × ℚ × ℚ) :=
  match energyFromPower P (some f) none .rightLabeled none with
  | .error _ => []
  | .ok E => energy.flatMap fun r => E.filterMap fun x =>
      if r.1 = x.1 then r.2.bind fun e => x.2.map fun m => (r.1, e, m) else none

theorem exSamples_mem {n : Numeric} {f : Int} {energy P : Series} (hf : n.freq (energy.map Prod.fst) = some f) {t : Int} {e m : ℚ}
    (h : Spec.Sample n energy P t e m) : (t, e, m) ∈ exSamples f energy P := by
  obtain ⟨a, b, f', E, hfr, hE, hm⟩ := h
  rw [hf] at hfr
  cases hfr
  unfold exSamples
  rw [hE]
  exact List.mem_flatMap.mpr ⟨_, a, List.mem_filterMap.mpr ⟨_, hm, by simp⟩⟩

/-- the performance stored in the example -/
def exSoilPerf : Series := SrrEx.pm

/-- what is computed about the example -/
def exSoilFacts (s s' : TA Unit YoYResult SrrOut) : Bool :=
  s.params.items.has "normalized_filter" && s'.aggDaily &&
  decide (Spec.modelPower { exPlate with freq := fun _ => some exHalfDay } s' .sensor = some exSoilModel) &&
  decide (s'.poa = exSoiled.poa) &&
  decide (meanDelta (s.pvEnergy.map Prod.fst) = some exHalfDay) &&
  decide (s'.sensor.performance = some exSoilPerf) &&
  (exSamples exHalfDay s.pvEnergy exSoilModel).all (fun x =>
    decide (0 ≤ x.1 ∧ x.2.1 = x.2.2 * SrrEx.saw 4 (1/10) (x.1 / dayNs).toNat))

theorem exSoilRun_facts (m : SrrMethod) : ((exSoilRun m).elim false fun x => exSoilFacts x.1 x.2) = true := by
  cases m <;> decide +kernel

theorem exSoil_record (m : SrrMethod) : ∃ s s' : TA Unit YoYResult SrrOut, preprocess (exSoilEnv m) .sensor s = (.ok (), s') ∧
    Spec.SoiledRecord { exPlate with freq := fun _ => some exHalfDay }
      { exKeywords with aggFreq := dayNs, twoWay := fun _ => (7 * dayNs, 1) } .sensor s s' (exSrrArgs m)
      exSoilModel exSoilPerf (SrrEx.saw 4 (1/10)) [4] 0 4 (1/10) 1 := by
  have hf := exSoilRun_facts m
  cases hr : exSoilRun m with
  | none => rw [hr] at hf; cases hf
  | some x =>
    rw [hr] at hf
    obtain ⟨s, s'⟩ := x
    simp only [Option.elim, exSoilFacts, Bool.and_eq_true, decide_eq_true_eq] at hf
    obtain ⟨⟨⟨⟨⟨⟨h1, h2⟩, h3⟩, h4⟩, h5⟩, h6⟩, h7⟩ := hf
    refine ⟨s, s', ?_, ?_⟩
    · unfold exSoilRun at hr
      cases hc : (construct exSoiled : Except PyErr (TA Unit YoYResult SrrOut)).toOption with
      | none => rw [hc] at hr; cases hr
      | some s0 =>
        rw [hc] at hr
        simp only [Option.bind_some] at hr
        split at hr
        · rename_i u hu
          simp only [Option.some.injEq, Prod.mk.injEq] at hr
          obtain ⟨rfl, rfl⟩ := hr
          exact hu
        · cases hr
    · exact {
        daily := h2
        freq := rfl
        normalized := h1
        model := h3
        irradiance := by
          intro g hg t v hv
          have hg' : s'.poa = some g := hg
          rw [h4] at hg'
          cases hg'
          obtain ⟨i, -, e⟩ := List.mem_map.mp hv
          simp only [Prod.mk.injEq, Option.some.injEq] at e
          rw [← e.2]
          norm_num
        fine := by
          intro x y hx hy
          rw [h5] at hy
          cases hy
          have : meanDelta (exSoilModel.map Prod.fst) = some exHalfDay := by decide +kernel
          rw [this] at hx
          cases hx
          exact le_rfl
        sampling := by rintro f ⟨⟩; decide
        stored := h6
        complete := by
          have : ∀ r ∈ exSoilPerf, 0 < r.2.getD 0 ∧ r.2 ≠ none := by decide +kernel
          intro r hr
          obtain ⟨a, b⟩ := this r hr
          cases hx : r.2 with
          | none => exact absurd hx b
          | some x => rw [hx] at a; exact ⟨x, rfl, a⟩
        long := by decide +kernel
        precip := by rintro p ⟨⟩
        follows := by
          intro i L hL t e x hs _ ht1 ht2
          have hm := exSamples_mem rfl hs
          have := List.all_eq_true.mp h7 _ hm
          simp only [decide_eq_true_eq] at this
          rw [this.2]
          have hLi : ∀ i : Nat, i < 8 → (exSoilPerf[i]?).map Prod.fst = some ((i : Int) * dayNs) := by decide +kernel
          have hi : i < 8 := by
            by_contra h
            rw [List.getElem?_eq_none (by have : exSoilPerf.length = 8 := by decide +kernel
                                          omega)] at hL
            cases hL
          rw [hLi i hi] at hL
          cases hL
          have : t / dayNs = i := by
            rw [Int.ediv_eq_iff_of_pos dayNs_pos]
            constructor <;> linarith
          rw [this]
          rfl
        pos := by decide +kernel
        level := by simp [FirstYear, exSrrArgs, SrrEx.opts]
        unit := Or.inr (Or.inr (by simp [exPlate]))
        scale := rfl
        shift := rfl
        linear := srrEx_linear.1
        spaced := by unfold Spaced; decide +kernel
        scale_le := by cases m <;> decide +kernel
        length_lt := by cases m <;> decide +kernel
        threshold := Or.inl ⟨1/10, rfl, by norm_num, by unfold Restores; decide +kernel⟩
        trim := rfl
        length_pos := by cases m <;> decide +kernel
        slope_pos := by cases m <;> decide +kernel
        step := by cases m <;> decide +kernel
        draws := by simp [exSrrArgs]
        conf0 := by cases m <;> decide +kernel
        conf1 := by cases m <;> decide +kernel
        exceed0 := by cases m <;> decide +kernel
        exceed1 := by cases m <;> decide +kernel }

/-- the last day is stored at 0.7 -/
example : ∃ (s s' : TA Unit YoYResult SrrOut) (out : SrrOut) (p : List (Int × Cell)),
    analysis (exSoilEnv .halfNorm) .sensor ["srr_soiling"] "" "" s =
      (.ok (), s'.modifyOut .sensor fun o => { o with results := some ⟨none, some out⟩ }) ∧
    out.profiles = [p, p] ∧ (p[7]?).map Prod.snd = some (some (7/10)) ∧ out.low = out.ratio := by
  obtain ⟨s, s', hp, H⟩ := exSoil_record .halfNorm
  obtain ⟨_, out, p, -, h2, h3, -, h5, -, h7, -⟩ := C122_half_norm (yoyKw := "") (srrKw := "") hp H rfl
    (by have : SrrEx.saw 4 (1/10) 0 = 1 ∧ SrrEx.saw 4 (1/10) 4 = 1 := by decide +kernel
        rintro s (rfl | hs)
        · exact this.1
        · simp only [List.mem_singleton] at hs; subst hs; exact this.2)
    (fun l => List.Perm.refl _) (fun _ => by show (0 : ℚ) ≤ 1; norm_num)
  refine ⟨s, s', out, p, h2, h3, ?_, h7⟩
  rw [h5 7 (by decide +kernel)]
  decide +kernel

example : ∃ (s s' : TA Unit YoYResult SrrOut) (out : SrrOut) (p : List (Int × Cell)),
    analysis (exSoilEnv .perfectClean) .sensor ["srr_soiling"] "" "" s =
      (.ok (), s'.modifyOut .sensor fun o => { o with results := some ⟨none, some out⟩ }) ∧
    out.profiles = [p, p] ∧ (p[7]?).map Prod.snd = some (some (7/10)) ∧ out.high = out.ratio := by
  obtain ⟨s, s', hp, H⟩ := exSoil_record .perfectClean
  obtain ⟨_, out, p, -, h2, h3, -, h5, -, -, h7, -⟩ := C122_perfect_clean (yoyKw := "") (srrKw := "") hp H rfl
    (fun l => List.Perm.refl _) (fun _ => by show (0 : ℚ) ≤ 1; norm_num)
  refine ⟨s, s', out, p, h2, h3, ?_, h7⟩
  rw [h5 7 4 (by decide +kernel) (by unfold CleanedLast; decide)]
  decide +kernel

/-- every day of the example is stored with the insolation that its performance is weighted with -/
example : ∃ (s s' : TA Unit YoYResult SrrOut) (insol : Series), preprocess (exSoilEnv .halfNorm) .sensor s = (.ok (), s') ∧
    (s'.out .sensor).insolation = some insol ∧ insol.map Prod.fst = exSoilPerf.map Prod.fst ∧
    ∀ L e, (L, some e) ∈ exSoilPerf → ∃ x, x ≠ 0 ∧ (L, some x) ∈ insol := by
  obtain ⟨s, s', hp, H⟩ := exSoil_record .halfNorm
  obtain ⟨_, _, N, I, mask, perf, insol, -, -, -, -, h1, h2, h3, h4, -⟩ := C122_insolation hp dayNs_pos (Or.inl dvd_rfl)
  rw [H.stored] at h1
  cases h1
  exact ⟨s, s', insol, hp, h2, h3, fun L e he => ⟨_, (h4 L e he).2.1, (h4 L e he).1⟩⟩

end Verif.Chains
