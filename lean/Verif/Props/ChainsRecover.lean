import Verif.Lemmas.ChainsNormalized
import Verif.Props.YoYRobust
import Verif.Props.AggregationBins

/-! # C113: an analysis recovers the degradation of a system that follows its model
(rdtools/analysis_chains.py)

From the measured energy and the weather to the stored degradation rate, for any filters. -/

namespace Verif.Chains
open Verif.Spec Verif.Linear
variable {Loc σ : Type} {n : Numeric} {k : Keywords} {rest : Env Loc YoYResult σ} {c : Case}
  {s s' : TA Loc YoYResult σ}

/-- a sample: at time `t` energy `e` was measured and the model yields energy `m` (not zero) over the same interval -/
def Spec.Sample (n : Numeric) (energy P : Series) (t : Int) (e m : ℚ) : Prop :=
  (t, some e) ∈ energy ∧ m ≠ 0 ∧ ∃ f E, n.freq (energy.map Prod.fst) = some f ∧
    energyFromPower P (some f) none .rightLabeled none = .ok E ∧ (t, some m) ∈ E

/-- the filters of the finished analysis accepted the sample taken at `t` -/
def Spec.Accepted (s' : TA Loc YoYResult σ) (c : Case) (t : Int) : Prop :=
  ∃ mask, (s'.out c).mask = some mask ∧ verdictAt mask t = true

/-- the sample taken at `t` counts: the filters accepted it, and those for aggregated data kept a period that contains it -/
def Spec.Counted (s' : TA Loc YoYResult σ) (c : Case) (f t : Int) : Prop :=
  Spec.Accepted s' c t ∧ ∃ maskAgg L, (s'.out c).maskAgg = some maskAgg ∧ verdictAt maskAgg L = true ∧ L ≤ t ∧ t < L + f

/-- the model power is not sampled more coarsely, on average, than the measured energy -/
def Spec.FineEnough (energy P : Series) : Prop :=
  ∀ x y, meanDelta (P.map Prod.fst) = some x → meanDelta (energy.map Prod.fst) = some y → x ≤ y

theorem lookupF_fin {K : List (Int × Flt)} {t : Int} {v : ℚ} (h : lookupF K t = .fin v) : (t, .fin v) ∈ K := by
  induction K with
  | nil => simp [lookupF] at h
  | cons r K ih =>
    obtain ⟨u, x⟩ := r
    simp only [lookupF] at h
    split_ifs at h with hu
    · subst hu; rw [h]; exact List.mem_cons_self
    · exact List.mem_cons_of_mem _ (ih h)

theorem div_fin {a b : Cell} {v : ℚ} (h : Flt.div (Flt.ofCell a) (Flt.ofCell b) = .fin v) :
    ∃ x y, a = some x ∧ b = some y ∧ y ≠ 0 ∧ v = x / y := by
  cases a with
  | none => simp [Flt.ofCell, Flt.div] at h
  | some x =>
    cases b with
    | none => simp [Flt.ofCell, Flt.div] at h
    | some y =>
      simp only [Flt.ofCell, Flt.div, Flt.ofDiv] at h
      by_cases hy : y = 0
      · rw [if_pos hy] at h; split_ifs at h
      · rw [if_neg hy, Flt.fin.injEq] at h
        exact ⟨x, y, rfl, rfl, hy, h.symm⟩

theorem normalize_samples {energy P g : Series} {N0 : List (Int × Flt)} {I : Series}
    (h : normalizeWithExpectedPower energy P g (n.freq (energy.map Prod.fst)) .energy = .ok (N0, I))
    (hfine : Spec.FineEnough energy P) (hf : ∀ f, n.freq (energy.map Prod.fst) = some f → 0 ≤ f) (hg : NN g) :
    NN I ∧ (N0.map Prod.fst).Nodup ∧
      ∀ t v, (t, .fin v) ∈ N0 → ∃ e m, Spec.Sample n energy P t e m ∧ v = e / m := by
  unfold normalizeWithExpectedPower at h
  cases hfr : n.freq (energy.map Prod.fst) with
  | none => rw [hfr] at h; cases h
  | some f =>
    rw [hfr] at h
    dsimp only at h
    unfold normalizeEnergy at h
    have hc : cellCmp (fun a b => decide (a > b)) (meanDelta (P.map Prod.fst)) (meanDelta (energy.map Prod.fst)) = false := by
      cases h1 : meanDelta (P.map Prod.fst) with
      | none => rfl
      | some x =>
        cases h2 : meanDelta (energy.map Prod.fst) with
        | none => rfl
        | some y =>
          have := hfine x y h1 h2
          simp only [cellCmp, decide_eq_false_iff_not]
          exact not_lt.mpr this
    rw [hc] at h
    simp only [Bool.false_eq_true, if_false, Except.bind] at h
    cases hE : energyFromPower P (some f) none .rightLabeled none with
    | error e => rw [hE] at h; cases h
    | ok E =>
      rw [hE] at h
      cases hI : energyFromPower g (some f) none .rightLabeled none with
      | error e => rw [hI] at h; cases h
      | ok insol =>
        rw [hI] at h
        simp only [Except.ok.injEq, Prod.mk.injEq] at h
        obtain ⟨rfl, rfl⟩ := h
        refine ⟨?_, ?_, ?_⟩
        · have h1 := NN.energy hg (tf := some f) (fr := none) (by rintro _ ⟨⟩; exact hf f hfr) (by rintro _ ⟨⟩) hI
          exact h1.map_lookup _
        · rw [List.map_map]
          have : (Prod.fst ∘ fun t : Int => (t, lookupF (alignDiv energy E) t)) = id := rfl
          rw [this, List.map_id]
          exact (sortedUnion_sorted _).imp fun h => ne_of_lt h
        · intro t v hv
          obtain ⟨u, -, e⟩ := List.mem_map.mp hv
          simp only [Prod.mk.injEq] at e
          obtain ⟨rfl, e⟩ := e
          have hm := lookupF_fin e
          unfold alignDiv at hm
          obtain ⟨w, -, e'⟩ := List.mem_map.mp hm
          simp only [Prod.mk.injEq] at e'
          obtain ⟨rfl, e'⟩ := e'
          obtain ⟨x, y, hx, hy, hy0, rfl⟩ := div_fin e'
          exact ⟨x, y, ⟨lookupK_eq_some hx, hy0, f, E, hfr, hE, lookupK_eq_some hy⟩, rfl⟩

theorem fin_of_finiteCell {x : Flt} {v : ℚ} (h : finiteCell x = some v) : x = .fin v := by
  cases x <;> simp [finiteCell] at h
  rw [h]

theorem normalized_samples {energy P g N I : Series} {scaled : Bool} (h : Normalized n energy P g scaled N I)
    (hfine : Spec.FineEnough energy P) (hf : ∀ f, n.freq (energy.map Prod.fst) = some f → 0 ≤ f) (hg : NN g) :
    NN I ∧ (N.map Prod.fst).Nodup ∧ ∃ q : ℚ, q ≠ 0 ∧ (scaled = false ∨ n.rated ≠ none → q = 1) ∧
      ∀ t v, (t, some v) ∈ N → ∃ e m, Spec.Sample n energy P t e m ∧ q * v = e / m := by
  obtain ⟨N0, h0, rfl⟩ := h
  obtain ⟨hI, hN, hs⟩ := normalize_samples h0 hfine hf hg
  refine ⟨hI, ?_, ?_⟩
  · have : (finiteCells (if scaled = true then renormalize n.rated N0 else N0)).map Prod.fst = N0.map Prod.fst := by
      unfold finiteCells renormalize
      cases scaled <;> cases n.rated <;> simp [Function.comp_def]
    rw [this]; exact hN
  · have plain : ∀ t v, (t, some v) ∈ finiteCells N0 → ∃ e m, Spec.Sample n energy P t e m ∧ 1 * v = e / m := by
      intro t v hv
      obtain ⟨r, hr, e⟩ := List.mem_map.mp hv
      obtain ⟨u, x⟩ := r
      simp only [Prod.mk.injEq] at e
      obtain ⟨rfl, e⟩ := e
      rw [fin_of_finiteCell e] at hr
      rw [one_mul]
      exact hs _ _ hr
    cases scaled with
    | false => exact ⟨1, one_ne_zero, fun _ => rfl, plain⟩
    | true =>
      cases hr : n.rated with
      | some p => exact ⟨1, one_ne_zero, fun _ => rfl, plain⟩
      | none =>
        simp only [if_true, renormalize]
        generalize robustQuantile (finiteValues N0) (95 / 100) = Q
        have step : ∀ t v, (t, some v) ∈ finiteCells (N0.map fun r => (r.1, Flt.div r.2 (Flt.ofCell Q))) →
            ∃ q, Q = some q ∧ q ≠ 0 ∧ ∃ e m, Spec.Sample n energy P t e m ∧ q * v = e / m := by
          intro t v hv
          unfold finiteCells at hv
          rw [List.map_map] at hv
          obtain ⟨r, hr, e⟩ := List.mem_map.mp hv
          obtain ⟨u, x⟩ := r
          simp only [Function.comp_apply, Prod.mk.injEq] at e
          obtain ⟨rfl, e⟩ := e
          replace e := fin_of_finiteCell e
          cases Q with
          | none => cases x <;> simp [Flt.ofCell, Flt.div] at e
          | some q =>
            cases x with
            | nan => simp [Flt.ofCell, Flt.div] at e
            | pinf => simp only [Flt.ofCell, Flt.div] at e; split_ifs at e
            | ninf => simp only [Flt.ofCell, Flt.div] at e; split_ifs at e
            | fin w =>
              obtain ⟨x, y, hx, hy, hy0, rfl⟩ := div_fin (a := some w) (b := some q) e
              cases hx
              cases hy
              refine ⟨q, rfl, hy0, ?_⟩
              rw [mul_div_cancel₀ _ hy0]
              exact hs _ _ hr
        cases Q with
        | none =>
          refine ⟨1, one_ne_zero, by simp, fun t v hv => ?_⟩
          obtain ⟨q, hq, -⟩ := step t v hv
          cases hq
        | some q =>
          by_cases hq : q = 0
          · refine ⟨1, one_ne_zero, by simp, fun t v hv => ?_⟩
            obtain ⟨q', hq', h0, -⟩ := step t v hv
            cases hq'
            exact absurd hq h0
          · refine ⟨q, hq, by simp, fun t v hv => ?_⟩
            obtain ⟨q', hq', -, h⟩ := step t v hv
            cases hq'
            exact h

/-- **C113 (performance).** In every successful analysis, with measured or with clear-sky irradiance, expected power or
PVWatts, and whatever filters take part besides `normalized_filter`: the performance of a period lies between the
smallest and the largest ratio of measured to modelled energy among the samples of that period that count. Samples that
the filters rejected and samples of rejected periods may be anything. Without a nameplate power and without expected power the
performance is in units of one number `q`. -/
theorem C113_performance (h : preprocess (degradationEnv n k rest) c s = (.ok (), s'))
    (hn : s.params.items.has "normalized_filter" = true) (hagg : 0 < k.aggFreq)
    (hfit : Spec.FitsDays k.aggFreq) {P : Series} (hP : Spec.modelPower n s' c = some P)
    (hg : ∀ g, Spec.irradiance s' c = some g → ∀ t v, (t, some v) ∈ g → 0 ≤ v)
    (hfine : Spec.FineEnough s.pvEnergy P) (hf : ∀ f, n.freq (s.pvEnergy.map Prod.fst) = some f → 0 ≤ f) :
    ∃ perf q, (s'.out c).performance = some perf ∧ (perf.map Prod.fst).Nodup ∧ q ≠ 0 ∧
      (s.powerExpected ≠ none ∨ n.rated ≠ none → q = 1) ∧
      ∀ L v, (L, some v) ∈ perf → ∀ lo hi : ℚ,
        (∀ t e m, Spec.Sample n s.pvEnergy P t e m → Spec.Counted s' c k.aggFreq t → L ≤ t → t < L + k.aggFreq →
          lo ≤ e / m ∧ e / m ≤ hi) →
        lo ≤ q * v ∧ q * v ≤ hi := by
  obtain ⟨u, N, I, g, P', h1, h2, h3, h4, h5⟩ := preprocess_normalized h
  rw [hP] at h4
  cases h4
  obtain ⟨hI, hN, q, hq, hq1, hs⟩ := normalized_samples h5 hfine hf (hg g h3)
  obtain ⟨mask, maskAgg, perf, m1, m2, e1, e2, e3⟩ := finish_performance hagg hfit hN hI (by rw [h2.1]; exact hn) h1
  refine ⟨perf, q, e1, e2, hq, ?_, ?_⟩
  · rintro (h | h)
    · refine hq1 (.inl ?_)
      cases hpe : s.powerExpected with
      | none => exact absurd hpe h
      | some _ => rfl
    · exact hq1 (.inr h)
  · intro L v hv lo hi hb
    have key : ∀ t w, (t, some w) ∈ N → verdictAt mask t = true → L ≤ t → t < L + k.aggFreq → lo ≤ q * w ∧ q * w ≤ hi := by
      intro t w hw h0 h1 h2
      obtain ⟨e, m, hsm, e4⟩ := hs t w hw
      rw [e4]
      exact hb t e m hsm ⟨⟨mask, m1, h0⟩, maskAgg, L, m2, (e3 L v hv).1, h1, h2⟩ h1 h2
    rcases lt_or_gt_of_ne hq with hq0 | hq0
    · have := (e3 L v hv).2 (hi / q) (lo / q) fun t w hw h0 h1 h2 => by
        have := key t w hw h0 h1 h2
        constructor
        · rw [div_le_iff_of_neg hq0]; linarith [this.2, mul_comm w q]
        · rw [le_div_iff_of_neg hq0]; linarith [this.1, mul_comm w q]
      have a1 := (div_le_iff_of_neg hq0).mp this.1
      have a2 := (le_div_iff_of_neg hq0).mp this.2
      constructor <;> linarith [mul_comm v q]
    · have := (e3 L v hv).2 (lo / q) (hi / q) fun t w hw h0 h1 h2 => by
        have := key t w hw h0 h1 h2
        constructor
        · rw [div_le_iff₀ hq0]; linarith [this.1, mul_comm w q]
        · rw [le_div_iff₀ hq0]; linarith [this.2, mul_comm w q]
      have a1 := (div_le_iff₀ hq0).mp this.1
      have a2 := (le_div_iff₀ hq0).mp this.2
      constructor <;> linarith [mul_comm v q]

theorem mem_robustKeep_between {x : List Cell} {p lo hi : ℚ} (h : ∀ v, some v ∈ x → lo ≤ v ∧ v ≤ hi) {y : ℚ}
    (hy : y ∈ robustKeep x p) : lo ≤ y ∧ y ≤ hi := by
  obtain ⟨h1, -⟩ := mem_robustKeep hy
  exact h y (by simpa [valids] using h1)

/-- the reference level of a recentred year-on-year analysis lies between the values of the first year -/
theorem renorm_between {recenter : Bool} {x : Series} {T : Int} {lo hi κ : ℚ} (hr : recenter = true)
    (hT : ∃ r ∈ x, r.1 ≤ T) (h : ∀ t v, (t, some v) ∈ x → t ≤ T + 364 * dayNs → lo ≤ v ∧ v ≤ hi)
    (hk : yoyRenorm recenter (sortIndex x) = some κ) : lo ≤ κ ∧ κ ≤ hi := by
  subst hr
  have hsorted := sorted_times x
  have hperm := sortIndex_perm x
  unfold yoyRenorm at hk
  cases hs : sortIndex x with
  | nil => rw [hs] at hk; cases hk
  | cons p l =>
    rw [hs] at hk hsorted
    simp only [if_true] at hk
    have hp : p.1 ≤ T := by
      obtain ⟨r, hr, hrT⟩ := hT
      have : r ∈ p :: l := by rw [← hs]; exact hperm.mem_iff.mpr hr
      rcases List.mem_cons.mp this with rfl | hm
      · exact hrT
      · rw [List.map_cons, List.pairwise_cons] at hsorted
        exact le_trans (hsorted.1 r.1 (List.mem_map.mpr ⟨r, hm, rfl⟩)) hrT
    have hb : ∀ v, some v ∈ ((p :: l).filter fun r => decide (p.1 ≤ r.1 ∧ r.1 ≤ p.1 + 364 * dayNs)).map Prod.snd →
        lo ≤ v ∧ v ≤ hi := by
      intro v hv
      obtain ⟨⟨t, w⟩, hq, hqv⟩ := List.mem_map.mp hv
      obtain ⟨hq1, hq2⟩ := List.mem_filter.mp hq
      simp only [decide_eq_true_eq] at hq2
      simp only at hqv
      subst hqv
      exact h t v (hperm.mem_iff.mp (by rw [hs]; exact hq1)) (by omega)
    unfold robustMedian at hk
    exact ⟨median_ge hk fun y hy => (mem_robustKeep_between hb hy).1,
      median_le hk fun y hy => (mem_robustKeep_between hb hy).2⟩

/-- an analysis that was asked for the year-on-year rate -/
theorem analysis_yoy {env : Env Loc YoYResult σ} {analyses : List String} {yoyKw srrKw : String}
    (h : analysis env c analyses yoyKw srrKw s = (.ok (), s')) (hy : "yoy_degradation" ∈ analyses) :
    ∃ u perf r z, preprocess env c s = (.ok (), u) ∧ (u.out c).performance = some perf ∧ env.yoy yoyKw perf = .ok r ∧
      s' = u.modifyOut c fun o => { o with results := some ⟨some r, z⟩ } := by
  have H : Stable env c fun _ => True := by constructor <;> intros <;> trivial
  rcases analysis_keeps H (s := s) trivial analyses yoyKw srrKw with ⟨e, u, -, h'⟩ | ⟨u, perf, insol, y, z, -, h1, h2, -, h4, -, h6⟩
  · rw [h] at h'; cases h'
  · rw [h6, Prod.mk.injEq] at h
    unfold requested at h4
    rw [if_pos hy] at h4
    obtain ⟨h4, -⟩ := call_ok h4
    unfold yoyDegradation at h4
    cases hfc : filterCheck perf with
    | error e => rw [hfc] at h4; cases h4
    | ok x =>
      rw [hfc] at h4
      cases hr : env.yoy yoyKw perf with
      | error e => rw [hr] at h4; cases h4
      | ok r =>
        rw [hr] at h4
        cases h4
        exact ⟨u, perf, r, z, h1, h2, hr, h.2.symm⟩

/-- **C113 (rate).** Suppose the measured energy follows the model times a straight line `a + b·years` up to a relative
error `ε`, at least in the samples that count: accepted by the filters, in periods that were kept. Then every successful analysis with measured or clear-sky irradiance, whatever filters take part, stores a year-on-year
rate that differs from `100·b` percent of the reference level `K` by no more than the noise and the drift within one aggregation period
account for. -/
theorem C113_recover {analyses : List String} {yoyKw srrKw : String}
    (h : analysis (degradationEnv n k rest) c analyses yoyKw srrKw s = (.ok (), s'))
    (hy : "yoy_degradation" ∈ analyses)
    (hn : s.params.items.has "normalized_filter" = true) (hagg : 0 < k.aggFreq)
    (hfit : Spec.FitsDays k.aggFreq) {P : Series} (hP : Spec.modelPower n s' c = some P)
    (hg : ∀ g, Spec.irradiance s' c = some g → ∀ t v, (t, some v) ∈ g → 0 ≤ v)
    (hfine : Spec.FineEnough s.pvEnergy P) (hf : ∀ f, n.freq (s.pvEnergy.map Prod.fst) = some f → 0 ≤ f)
    (a b ε : ℚ) (t0 : Int)
    (hsys : ∀ t e m, Spec.Sample n s.pvEnergy P t e m → Spec.Counted s' c k.aggFreq t →
      |e - m * (a + b * (((t : ℚ) - t0) / (365 * dayNs)))| ≤ ε * |m|) :
    ∃ r z K, (s'.out c).results = some ⟨some r, z⟩ ∧ K ≠ 0 ∧
      |r.rd - 100 * b / K| ≤ (200 * ε + 100 * |b| * (k.aggFreq / (365 * dayNs))) / |K| ∧
      (s.powerExpected ≠ none ∨ n.rated ≠ none → r.renorm = some K) ∧
      ((k.yoy yoyKw).recenter = true → ∀ T lo hi, (∃ perf, (s'.out c).performance = some perf ∧ ∃ x ∈ perf, x.1 ≤ T) →
        (∀ t e m, Spec.Sample n s.pvEnergy P t e m → Spec.Counted s' c k.aggFreq t → t < T + 364 * dayNs + k.aggFreq →
          lo ≤ e / m ∧ e / m ≤ hi) →
        lo ≤ K ∧ K ≤ hi) := by
  obtain ⟨u, perf, r, z, h1, h2, h3, rfl⟩ := analysis_yoy h hy
  have hP' : Spec.modelPower n u c = some P := by rw [← hP]; cases c <;> rfl
  have hg' : ∀ g, Spec.irradiance u c = some g → ∀ t v, (t, some v) ∈ g → 0 ≤ v := by
    intro g hgu; refine hg g ?_; rw [← hgu]; cases c <;> rfl
  obtain ⟨perf', q, e1, e2, hq, hq1, e3⟩ := C113_performance h1 hn hagg hfit hP' hg' hfine hf
  have hcount : ∀ {t}, Spec.Counted u c k.aggFreq t →
      Spec.Counted (u.modifyOut c fun o => { o with results := some ⟨some r, z⟩ }) c k.aggFreq t := by
    intro t ht; cases c <;> exact ht
  rw [h2] at e1
  cases e1
  have hD : (0 : ℚ) < 365 * dayNs := by
    have : (0 : ℚ) < dayNs := by exact_mod_cast dayNs_pos
    linarith
  have hF : (0 : ℚ) < k.aggFreq := by exact_mod_cast hagg
  have hratio : ∀ t e m, Spec.Sample n s.pvEnergy P t e m → Spec.Counted u c k.aggFreq t →
      |e / m - (a + b * (((t : ℚ) - t0) / (365 * dayNs)))| ≤ ε := by
    intro t e m hs hcd
    have hm : m ≠ 0 := hs.2.1
    have := hsys t e m hs (hcount hcd)
    have hm' : 0 < |m| := abs_pos.mpr hm
    have e4 : e / m - (a + b * (((t : ℚ) - t0) / (365 * dayNs))) =
        (e - m * (a + b * (((t : ℚ) - t0) / (365 * dayNs)))) / m := by field_simp
    rw [e4, abs_div, div_le_iff₀ hm']
    exact this
  set δ : ℚ := |b| * (k.aggFreq / (2 * (365 * dayNs))) with hδ
  have hline : ∀ L v, (L, some v) ∈ perf →
      |v - ((a + b * (k.aggFreq / (2 * (365 * dayNs)))) / q + b / q * (((L : ℚ) - t0) / (365 * dayNs)))| ≤ (ε + δ) / |q| := by
    intro L v hv
    have hb := e3 L v hv (a + b * (((L : ℚ) + k.aggFreq / 2 - t0) / (365 * dayNs)) - (ε + δ))
      (a + b * (((L : ℚ) + k.aggFreq / 2 - t0) / (365 * dayNs)) + (ε + δ)) fun t e m hs hcd ht1 ht2 => by
        have h1 := abs_le.mp (hratio t e m hs hcd)
        have ht1' : (L : ℚ) ≤ t := by exact_mod_cast ht1
        have ht2' : (t : ℚ) ≤ L + k.aggFreq := by exact_mod_cast ht2.le
        have h2 : |b * (((t : ℚ) - t0) / (365 * dayNs)) - b * (((L : ℚ) + k.aggFreq / 2 - t0) / (365 * dayNs))| ≤ δ := by
          rw [← mul_sub, abs_mul, hδ]
          refine mul_le_mul_of_nonneg_left ?_ (abs_nonneg b)
          rw [← sub_div, abs_div, abs_of_pos hD, div_le_div_iff₀ hD (by linarith)]
          have : |(t : ℚ) - t0 - (L + k.aggFreq / 2 - t0)| ≤ k.aggFreq / 2 := by
            rw [abs_le]; constructor <;> linarith
          nlinarith
        have h3 := abs_le.mp h2
        constructor <;> linarith [h1.1, h1.2, h3.1, h3.2]
    have hq' : 0 < |q| := abs_pos.mpr hq
    rw [le_div_iff₀ hq', ← abs_mul]
    have e5 : (v - ((a + b * (k.aggFreq / (2 * (365 * dayNs)))) / q + b / q * (((L : ℚ) - t0) / (365 * dayNs)))) * q =
        q * v - (a + b * (((L : ℚ) + k.aggFreq / 2 - t0) / (365 * dayNs))) := by
      field_simp
      ring
    rw [e5, abs_le]
    constructor <;> linarith [hb.1, hb.2]
  have h3' : Verif.yoy (k.yoy yoyKw).inferFreq (k.yoy yoyKw).recenter (k.yoy yoyKw).exceed (k.yoy yoyKw).conf
    (k.yoy yoyKw).method (k.yoy yoyKw).block (k.yoy yoyKw).choose (k.yoy yoyKw).draws perf = .ok r := h3
  obtain ⟨κ, k1, k2, k3, -⟩ := C111_noise h3' e2 _ _ _ t0 hline
  refine ⟨r, z, q * κ, by cases c <;> rfl, mul_ne_zero hq k2, ?_, ?_, ?_⟩
  · have e6 : 100 * (b / q) / κ = 100 * b / (q * κ) := by field_simp
    have e7 : 200 * ((ε + δ) / |q|) / |κ| = (200 * ε + 100 * |b| * (k.aggFreq / (365 * dayNs))) / |q * κ| := by
      rw [abs_mul, hδ]
      have h1 : |q| ≠ 0 := (abs_pos.mpr hq).ne'
      have h2 : |κ| ≠ 0 := (abs_pos.mpr k2).ne'
      field_simp
      ring
    rw [e6, e7] at k3
    exact k3
  · intro hh
    rw [hq1 hh, one_mul]
    exact k1
  · intro hrec T lo hi hT hb
    obtain ⟨perf', hp', x, hx, hxT⟩ := hT
    have hp'' : (u.out c).performance = some perf' := by rw [← hp']; cases c <;> rfl
    rw [h2] at hp''
    cases hp''
    obtain ⟨core, hc, -, hrn, -, -⟩ := yoy_ok h3'
    obtain ⟨hc1, -⟩ := yoyCore_ok hc
    rw [hrn, hc1] at k1
    have key : ∀ t v, (t, some v) ∈ perf → t ≤ T + 364 * dayNs → lo ≤ q * v ∧ q * v ≤ hi := by
      intro t v hv ht
      exact e3 t v hv lo hi fun t' e m hs hcd h1 h2 => hb t' e m hs (hcount hcd) (by omega)
    rcases lt_or_gt_of_ne hq with hq0 | hq0
    · have := renorm_between hrec ⟨x, hx, hxT⟩ (lo := hi / q) (hi := lo / q) (fun t v hv ht => by
        have := key t v hv ht
        constructor
        · rw [div_le_iff_of_neg hq0]; linarith [this.2, mul_comm v q]
        · rw [le_div_iff_of_neg hq0]; linarith [this.1, mul_comm v q]) k1
      have a1 := (div_le_iff_of_neg hq0).mp this.1
      have a2 := (le_div_iff_of_neg hq0).mp this.2
      constructor <;> linarith [mul_comm κ q]
    · have := renorm_between hrec ⟨x, hx, hxT⟩ (lo := lo / q) (hi := hi / q) (fun t v hv ht => by
        have := key t v hv ht
        constructor
        · rw [div_le_iff₀ hq0]; linarith [this.1, mul_comm v q]
        · rw [le_div_iff₀ hq0]; linarith [this.2, mul_comm v q]) k1
      have a1 := (div_le_iff₀ hq0).mp this.1
      have a2 := (le_div_iff₀ hq0).mp this.2
      constructor <;> linarith [mul_comm κ q]

/-! ## example -/

/-- 73 days -/
def exStep : Int := 73 * dayNs

/-- seventeen readings, 73 days apart, of a system that loses 5 % of its initial power per year; at the ninth both
instruments fail -/
def exDecline : Args where
  pv := (intRange 0 17).map fun i => (i * exStep, some (if i = 8 then 5 else 1 - i / 100))
  isPower := true
  poa := some ((intRange 0 17).map fun i => (i * exStep, some (if i = 8 then 1300 else 1000)))
  tcell := some ((intRange 0 17).map fun i => (i * exStep, some 25))
  tamb := none
  expected := none
  aggDaily := false
  interpFreq := none
  maxTd := none
  indexFreq := some exStep

/-- the default bounds of the filters; no confidence interval -/
def exKeywords : Keywords where
  normalized _ := (some (.fin (1/100)), none)
  poa _ := (.fin 200, .fin 1200)
  tcell _ := (.fin (-50), .fin 110)
  twoWay _ := (7 * dayNs, 3/100)
  insolation _ := 1/10
  hampel _ := (14, 3)
  tukey _ := (7 * dayNs, 3)
  yoy _ := ⟨fun _ => some exStep, true, 95, 341/5, .none, 30, fun _ => [], []⟩
  aggFreq := exStep
  known _ := true

/-- nameplate power 1, no temperature coefficient -/
def exPlate : Numeric where
  rated := some 1
  gamma := none
  freq _ := some exStep
  predict l := l.map fun _ => false
  clipArgs _ := .quantile (98/100)

/-- nothing else is needed -/
def exNothing : Env Unit YoYResult Unit where
  normalizedF _ _ := .error .keyError
  poaF _ _ := .error .keyError
  tcellF _ _ := .error .keyError
  clipF _ _ := .error .keyError
  hourAngleF _ _ _ := .error .keyError
  clearskyF _ _ _ := .error .keyError
  twoWayF _ _ := .error .keyError
  insolationF _ _ := .error .keyError
  hampelF _ _ := .error .keyError
  tukeyF _ _ := .error .keyError
  interpolate x := .ok x
  clearskyPoa _ x := .ok x
  clearskyTamb _ x := .ok x
  cellTemp x _ _ := .ok x
  pvwattsNorm _ _ _ := .error .keyError
  expectedNorm _ _ _ := .error .keyError
  aggregate _ _ := .error .keyError
  asfreq x := x
  yoy _ _ := .error .keyError
  srr _ _ _ := .error .keyError

/-- the object before and after a sensor analysis with the default filters -/
def exRun : Option (TA Unit YoYResult Unit × TA Unit YoYResult Unit) :=
  (construct exDecline).toOption.bind fun s =>
    match analysis (degradationEnv exPlate exKeywords exNothing) .sensor ["yoy_degradation"] "" "" s with
    | (.ok (), s') => some (s, s')
    | _ => none

/-- energies of the samples at the same time -/
def exPairs (energy P : Series) : List (Int × ℚ × ℚ) :=
  match energyFromPower P (some exStep) none .rightLabeled none with
  | .error _ => []
  | .ok E => energy.flatMap fun r => E.filterMap fun x =>
      if r.1 = x.1 then r.2.bind fun e => x.2.map fun m => (r.1, e, m) else none

/-- the modelled power -/
def exModel : Series := (intRange 0 17).map fun i => (i * exStep, some (if i = 8 then 13/10 else 1))

/-- a sample on the line -/
def exOnLine (x : Int × ℚ × ℚ) : Prop := x.2.1 = x.2.2 * (1 + (-1/20) * (((x.1 : ℚ) - (0 : Int)) / (365 * dayNs)))

instance (x : Int × ℚ × ℚ) : Decidable (exOnLine x) := by unfold exOnLine; infer_instance

/-- what is computed about the example -/
def exFacts (s s' : TA Unit YoYResult Unit) : Bool :=
  s.params.items.has "normalized_filter" &&
  decide (Spec.modelPower exPlate s' .sensor = some exModel) &&
  decide (s'.poa = exDecline.poa) &&
  decide (meanDelta (s.pvEnergy.map Prod.fst) = some exStep) &&
  decide ((exPairs s.pvEnergy exModel).length = 16) &&
  (exPairs s.pvEnergy exModel).all (fun x => decide (x.2.2 ≠ 0 ∧ (x.1 = 8 * exStep ∨ exOnLine x))) &&
  (exPairs s.pvEnergy exModel).any (fun x => decide (x.1 = 8 * exStep ∧ ¬exOnLine x)) &&
  decide (s'.sensor.mask.map (fun m => verdictAt m (8 * exStep)) = some false) &&
  (exPairs s.pvEnergy exModel).any (fun x => decide (s'.sensor.mask.map (fun m => verdictAt m x.1) = some true ∧
    s'.sensor.maskAgg.map (fun m => verdictAt m x.1) = some true)) &&
  decide ((s'.sensor.results.bind Results.yoy).map (fun r => (r.rd, r.renorm)) = some (-500/97, some (97/100)))

theorem exRun_facts : (exRun.elim false fun x => exFacts x.1 x.2) = true := by decide +kernel

/-- the hypotheses of `C113_recover` are met with `a = 1`, `b = -1/20`, no noise, although one sample is far off the line (the
irradiance filter rejects it); the rate stored is -5.15 % per year of the reference
level 0.97, which is -5 % of the initial power -/
example : ∃ (s s' : TA Unit YoYResult Unit) (P : Series),
    analysis (degradationEnv exPlate exKeywords exNothing) .sensor ["yoy_degradation"] "" "" s = (.ok (), s') ∧
    s.params.items.has "normalized_filter" = true ∧ Spec.FitsDays exKeywords.aggFreq ∧ Spec.modelPower exPlate s' .sensor = some P ∧
    (∀ g, Spec.irradiance s' .sensor = some g → ∀ t v, (t, some v) ∈ g → 0 ≤ v) ∧
    Spec.FineEnough s.pvEnergy P ∧
    (∃ t e m, Spec.Sample exPlate s.pvEnergy P t e m ∧ Spec.Counted s' .sensor exKeywords.aggFreq t) ∧
    (∃ t e m, Spec.Sample exPlate s.pvEnergy P t e m ∧
      ¬|e - m * (1 + (-1/20) * (((t : ℚ) - (0 : Int)) / (365 * dayNs)))| ≤ 0 * |m|) ∧
    (∀ t e m, Spec.Sample exPlate s.pvEnergy P t e m → Spec.Counted s' .sensor exKeywords.aggFreq t →
      |e - m * (1 + (-1/20) * (((t : ℚ) - (0 : Int)) / (365 * dayNs)))| ≤ 0 * |m|) ∧
    ((s'.out .sensor).results.bind Results.yoy).map (fun r => (r.rd, r.renorm)) = some (-500/97, some (97/100)) := by
  have hf := exRun_facts
  cases hr : exRun with
  | none => rw [hr] at hf; cases hf
  | some x =>
    rw [hr] at hf
    obtain ⟨s, s'⟩ := x
    simp only [Option.elim, exFacts, Bool.and_eq_true, decide_eq_true_eq] at hf
    obtain ⟨⟨⟨⟨⟨⟨⟨⟨⟨h1, h2⟩, h3⟩, h4⟩, h5⟩, h6⟩, h8⟩, h9⟩, h10⟩, h7⟩ := hf
    have hsample : ∀ t e m, Spec.Sample exPlate s.pvEnergy exModel t e m ↔
        m ≠ 0 ∧ (t, e, m) ∈ exPairs s.pvEnergy exModel := by
      intro t e m
      unfold Spec.Sample exPairs
      generalize exModel = P
      constructor
      · rintro ⟨a, b, f, E, hfr, hE, hm⟩
        cases hfr
        rw [hE]
        refine ⟨b, List.mem_flatMap.mpr ⟨_, a, List.mem_filterMap.mpr ⟨_, hm, by simp⟩⟩⟩
      · rintro ⟨b, hm⟩
        cases hE : energyFromPower P (some exStep) none .rightLabeled none with
        | error e => rw [hE] at hm; simp at hm
        | ok E =>
          rw [hE] at hm
          simp only [List.mem_flatMap, List.mem_filterMap] at hm
          obtain ⟨⟨u, c⟩, hr, ⟨w, d⟩, hx, he⟩ := hm
          split_ifs at he with hu
          cases c with
          | none => simp at he
          | some c =>
            cases d with
            | none => simp at he
            | some d =>
              simp only [Option.bind_some, Option.map_some, Option.some.injEq, Prod.mk.injEq] at he
              obtain ⟨rfl, rfl, rfl⟩ := he
              simp only at hu
              subst hu
              exact ⟨hr, b, exStep, E, rfl, hE, hx⟩
    refine ⟨s, s', exModel, ?_, h1, .inr ⟨73, by decide⟩, h2, ?_, ?_, ?_, ?_, ?_, h7⟩
    · unfold exRun at hr
      cases hc : (construct exDecline : Except PyErr (TA Unit YoYResult Unit)).toOption with
      | none => rw [hc] at hr; cases hr
      | some s0 =>
        rw [hc] at hr
        simp only [Option.bind_some] at hr
        split at hr
        · rename_i u hu
          simp only [Option.some.injEq, Prod.mk.injEq] at hr
          obtain ⟨rfl, rfl⟩ := hr
          exact hu
        · cases hr
    · intro g hg t v hv
      unfold Spec.irradiance at hg
      rw [h3] at hg
      cases hg
      obtain ⟨i, -, e⟩ := List.mem_map.mp hv
      simp only [Prod.mk.injEq, Option.some.injEq] at e
      rw [← e.2]
      split_ifs <;> norm_num
    · intro x y hx hy
      rw [h4] at hy
      cases hy
      have : meanDelta (exModel.map Prod.fst) = some exStep := by decide +kernel
      rw [this] at hx
      cases hx
      exact le_rfl
    · obtain ⟨⟨t, e, m⟩, hx, h⟩ := List.any_eq_true.mp h10
      have h0 := List.all_eq_true.mp h6 _ hx
      simp only [decide_eq_true_eq, Option.map_eq_some_iff] at h0 h
      obtain ⟨⟨mask, m1, m2⟩, maskAgg, m3, m4⟩ := h
      exact ⟨t, e, m, (hsample t e m).mpr ⟨h0.1, hx⟩, ⟨mask, m1, m2⟩, maskAgg, t, m3, m4, le_rfl, by
        have : 0 < exKeywords.aggFreq := by decide
        omega⟩
    · obtain ⟨⟨t, e, m⟩, hx, h⟩ := List.any_eq_true.mp h8
      have h0 := List.all_eq_true.mp h6 _ hx
      simp only [decide_eq_true_eq] at h0 h
      refine ⟨t, e, m, (hsample t e m).mpr ⟨h0.1, hx⟩, fun hle => h.2 ?_⟩
      rw [zero_mul] at hle
      exact sub_eq_zero.mp (abs_eq_zero.mp (le_antisymm hle (abs_nonneg _)))
    · intro t e m hs hcd
      have hx := ((hsample t e m).mp hs).2
      have := List.all_eq_true.mp h6 _ hx
      simp only [decide_eq_true_eq] at this
      rcases this.2 with h | h
      · obtain ⟨⟨mask, m1, m2⟩, -⟩ := hcd
        have m1' : s'.sensor.mask = some mask := m1
        rw [m1', Option.map_some, Option.some.injEq, ← h, m2] at h9
        cases h9
      · have h : e = m * (1 + (-1/20) * (((t : ℚ) - (0 : Int)) / (365 * dayNs))) := h
        rw [zero_mul, ← h, sub_self, abs_zero]

end Verif.Chains
