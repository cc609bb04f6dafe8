import Verif.Lemmas.CodsStages
import Verif.Lemmas.Quantile
import Verif.Props.CodsIntervals
import Verif.Props.CodsDecomp

/-! # Property C138: what the CODS bootstrap reports -/

namespace Verif.Cods

open Verif

/-- share of the days of the fit without any soiling -/
def Spec.cleanShare (d : Decomp) : ℚ := ((d.ratio.filter fun c => decide (c = some 1)).length : ℚ) / (d.ratio.length - d.first : Nat)

/-- sum of numbers times weights -/
def Spec.weightedSum (w x : List ℚ) : ℚ := (List.zipWith (fun a b => a * b) w x).sum

/-- every weight is one positive number, divided by the error and by one plus the share of days without soiling -/
def Spec.Weighted (fits : List Decomp) (w : List ℚ) : Prop :=
  w.length = fits.length ∧ w.sum = 1 ∧ ∃ K, 0 < K ∧ ∀ (i : Nat) (d : Decomp), fits[i]? = some d →
    ∃ r : ℚ, d.rmse = some r ∧ 0 < r ∧ w[i]? = some (K / (r * (1 + Spec.cleanShare d)))

/-- the interval of a confidence level (in percent) -/
def Spec.Interval (l : List ℚ) (conf : ℚ) (p : Cell × Cell) : Prop :=
  ∃ a b, p = (some a, some b) ∧ Verif.Spec.IsQuantile l ((100 - conf) / 200) a ∧ Verif.Spec.IsQuantile l ((100 + conf) / 200) b

/-- the interval of a day, from the values there are -/
def Spec.DayInterval (l : List Cell) (conf : ℚ) (lo hi : Cell) : Prop :=
  (∀ v, lo = some v ↔ Verif.Spec.IsQuantile (l.filterMap id) ((100 - conf) / 200) v) ∧
    ∀ v, hi = some v ↔ Verif.Spec.IsQuantile (l.filterMap id) ((100 + conf) / 200) v

/-- what is reported, given the refits that count and their seasonal components -/
structure Spec.Reported (conf : ℚ) (n : Nat) (out : BootOut) (refits : List Decomp) (seasonal : List (List Cell)) : Prop where
  weights : Spec.Weighted refits out.weights
  rate : out.degradation.1 = Spec.weightedSum out.weights (refits.map fun d => d.degradation)
  rateInterval : Spec.Interval (refits.map fun d => d.degradation) conf out.degradation.2
  loss : ∃ l : List ℚ, refits.map (fun d => d.soilingLoss) = l.map some ∧
    out.soilingLoss.1 = Spec.weightedSum out.weights l ∧ Spec.Interval l conf out.soilingLoss.2
  ratioDays : ∀ i < n, Spec.DayInterval (refits.map fun d => cellAt d.ratio i) conf (cellAt out.table.srLow i)
    (cellAt out.table.srHigh i)
  rateDays : ∀ i < n, Spec.DayInterval (refits.map fun d => cellAt d.rates i) conf (cellAt out.table.ratesLow i)
    (cellAt out.table.ratesHigh i)
  modelDays : ∀ i < n, Spec.DayInterval (refits.map fun d => cellAt d.total i) conf (cellAt out.table.modelLow i)
    (cellAt out.table.modelHigh i)
  seasonalDays : ∀ i < n, Spec.DayInterval (seasonal.map fun l => cellAt l i) conf (cellAt out.table.seasonalLow i)
    (cellAt out.table.seasonalHigh i)
  bootRatio : ∀ i < n, out.table.btRatio[i]? =
    some (Spec.weightedSum out.weights (refits.map fun d => (cellAt d.ratio i).getD 0))
  bootRates : ∀ i < n, out.table.btRates[i]? =
    some (Spec.weightedSum out.weights (refits.map fun d => (cellAt d.rates i).getD 0))
  cleaning : ∀ i < n, out.table.cleaningProb[i]? =
    some (Spec.weightedSum out.weights (refits.map fun d => if d.events[i]? = some true then 1 else 0))
  seasonal : ∀ i < n, cellAt out.table.seasonal i =
    some (Spec.weightedSum out.weights (seasonal.map fun l => (cellAt l i).getD 0))

theorem cleanShare_eq (d : Decomp) : Spec.cleanShare d = oneFraction d := by
  unfold Spec.cleanShare oneFraction
  rw [List.count_eq_length_filter]
  congr 3
  apply List.filter_congr
  intro x _
  by_cases hx : x = some 1 <;> simp [hx]

theorem weighted_of {fits : List Decomp} {w : List ℚ} (h : weightsOf fits = .ok w) (hne : fits ≠ []) : Spec.Weighted fits w := by
  obtain ⟨hl, -, hs⟩ := weightsOf_dist h hne
  obtain ⟨raw, rfl, hrl, hk, hp⟩ := weightsOf_ok h
  have hr : raw ≠ [] := by
    rintro rfl
    exact hne (List.length_eq_zero_iff.mp hrl.symm)
  have hsum := sum_pos' hr hp
  refine ⟨hl, hs, 1 / raw.sum, one_div_pos.mpr hsum, fun i d hd => ?_⟩
  obtain ⟨r, h1, h2, h3⟩ := hk i d hd
  refine ⟨r, h1, h2, ?_⟩
  unfold normalizeW
  rw [List.getElem?_map, h3, cleanShare_eq]
  simp only [Option.map_some, Option.some.injEq]
  rw [div_div, div_div, mul_comm]

theorem zipWith_swap (a b : List ℚ) : (List.zipWith (fun x y => x * y) a b).sum = Spec.weightedSum b a := by
  unfold Spec.weightedSum
  rw [List.zipWith_comm]
  congr 2
  funext x y
  exact mul_comm _ _

theorem weightedRow_eq (w : List ℚ) (row : List Cell) : weightedRow w row = Spec.weightedSum w (row.map fun c => c.getD 0) := by
  rw [← zipWith_swap]
  unfold weightedRow
  rw [List.zipWith_map_left]

theorem valids_filterMap' (l : List Cell) : valids l = l.filterMap id := rfl

theorem dayInterval_of {n : Nat} {cols : List (List Cell)} {conf : ℚ} (h0 : 0 ≤ lowEdge conf) (h0' : lowEdge conf ≤ 1)
    (h1 : 0 ≤ highEdge conf) (h1' : highEdge conf ≤ 1) {i : Nat} (hi : i < n) :
    Spec.DayInterval (cols.map fun l => cellAt l i) conf (cellAt (rowQuantile n cols (lowEdge conf)) i)
      (cellAt (rowQuantile n cols (highEdge conf)) i) := by
  have e0 : lowEdge conf = (100 - conf) / 200 := by unfold lowEdge; ring
  have e1 : highEdge conf = (100 + conf) / 200 := by unfold highEdge; ring
  unfold Spec.DayInterval
  rw [← e0, ← e1]
  unfold rowQuantile
  rw [cellAt_range _ hi, cellAt_range _ hi]
  exact ⟨fun v => (isQuantile_iff h0 h0').symm, fun v => (isQuantile_iff h1 h1').symm⟩

theorem interval_of {l : List ℚ} {conf : ℚ} (hne : l ≠ []) (h0 : 0 ≤ lowEdge conf) (h0' : lowEdge conf ≤ 1)
    (h1 : 0 ≤ highEdge conf) (h1' : highEdge conf ≤ 1) :
    Spec.Interval l conf (quantile l (lowEdge conf), quantile l (highEdge conf)) := by
  have e0 : lowEdge conf = (100 - conf) / 200 := by unfold lowEdge; ring
  have e1 : highEdge conf = (100 + conf) / 200 := by unfold highEdge; ring
  have q0 := quantile_some hne (lowEdge conf)
  have q1 := quantile_some hne (highEdge conf)
  exact ⟨_, _, by rw [q0, q1], by rw [← e0]; exact (isQuantile_iff h0 h0').mpr q0,
    by rw [← e1]; exact (isQuantile_iff h1 h1').mpr q1⟩

theorem getB_eq (l : List Bool) (i : Nat) : getB l i = true ↔ l[i]? = some true := by
  unfold getB
  cases h : l[i]? with
  | none => simp [h]
  | some b => simp [h]

theorem getElem?_range_map {α : Type} (f : Nat → α) {n i : Nat} (hi : i < n) : ((List.range n).map f)[i]? = some (f i) := by
  rw [List.getElem?_map, List.getElem?_range hi]
  rfl

theorem stage3_reported {e : BootEnv} {conf : ℚ} {pi : List Cell} {df : Decomp} {s2 : Stage2} {out : BootOut}
    (h : stage3 e pi conf df s2 = .ok out) : Spec.Reported conf pi.length out s2.kdfs s2.seasonal := by
  have hk := stage3_kdfs h
  obtain ⟨hw, ⟨l0, l0', l1, l1'⟩, hsl, -⟩ := stage3_ok h
  have hwt := weighted_of hw hk
  unfold stage3 at h
  rw [if_neg hk] at h
  by_cases hcf : lowEdge conf < 0 ∨ 1 < lowEdge conf ∨ highEdge conf < 0 ∨ 1 < highEdge conf
  · rw [if_pos hcf] at h; cases h
  rw [if_neg hcf] at h
  obtain ⟨w, hw, h⟩ := bind_ok'.mp h
  simp only at h
  by_cases hall : (s2.kdfs.map fun d => d.soilingLoss).all Option.isSome = true
  swap
  · rw [if_neg hall] at h; cases h
  rw [if_pos hall] at h
  obtain ⟨a, -, h⟩ := bind_ok'.mp h
  cases h
  have hv : s2.kdfs.map (fun d => d.soilingLoss) = (valids (s2.kdfs.map fun d => d.soilingLoss)).map some := by
    have key : ∀ l : List Cell, l.all Option.isSome = true → l = (valids l).map some := by
      intro l
      induction l with
      | nil => intro _; rfl
      | cons c l ih =>
        intro h
        rw [List.all_cons, Bool.and_eq_true] at h
        obtain ⟨v, rfl⟩ := Option.isSome_iff_exists.mp h.1
        have := ih h.2
        simp only [valids, List.filterMap_cons, id, List.map_cons] at this ⊢
        rw [← this]
    exact key _ hall
  have hvne : valids (s2.kdfs.map fun d => d.soilingLoss) ≠ [] := by
    intro h0
    rw [h0] at hv
    exact hk (by simpa using hv)
  have col : ∀ (i : Nat) (g : Decomp → List Cell), s2.kdfs.map (fun d => cellAt (g d) i) = (s2.kdfs.map g).map fun l => cellAt l i := by
    intro i g; rw [List.map_map]; rfl
  constructor
  · exact hwt
  · exact zipWith_swap _ _
  · exact interval_of (by simpa using hk) l0 l0' l1 l1'
  · refine ⟨_, hv, zipWith_swap _ _, ?_⟩
    simp only [lossQuantile, npQuantile, hall, if_true]
    exact interval_of hvne l0 l0' l1 l1'
  · intro i hi; rw [col i]; exact dayInterval_of l0 l0' l1 l1' hi
  · intro i hi; rw [col i]; exact dayInterval_of l0 l0' l1 l1' hi
  · intro i hi; rw [col i]; exact dayInterval_of l0 l0' l1 l1' hi
  · intro i hi; exact dayInterval_of l0 l0' l1 l1' hi
  · intro i hi
    rw [getElem?_range_map _ hi, weightedRow_eq, rowAt, List.map_map, List.map_map]
    rfl
  · intro i hi
    rw [getElem?_range_map _ hi, weightedRow_eq, rowAt, List.map_map, List.map_map]
    rfl
  · intro i hi
    rw [getElem?_range_map _ hi, weightedRow_eq, List.map_map]
    congr 3
    funext d
    simp only [Function.comp, bCell, Option.getD_some]
    by_cases hb : getB d.events i = true
    · rw [if_pos hb, if_pos ((getB_eq _ _).mp hb)]
    · rw [if_neg hb, if_neg (fun h => hb ((getB_eq _ _).mpr h))]
  · intro i hi
    show cellAt ((List.range pi.length).map _) i = _
    rw [cellAt_range _ hi, weightedRow_eq, rowAt, List.map_map]
    rfl

/-- the fits that are weighted: the refits that count, or the initial fits for a small signal -/
def Spec.Weighs (e : BootEnv) (out : BootOut) (fits : List Decomp) : Prop :=
  ∀ d ∈ fits, (out.small = false ∧ ∃ b x, e.refit b x = .ok d ∧ d.adf.2 < 5 / 100) ∨ (out.small = true ∧ ∃ c, e.fit0 c = .ok d)

theorem weighs_of_ok {e : BootEnv} {alts : Alternatives} {reps : Nat} {conf : ℚ} {day0 : Int} {pi : List Cell}
    {out : BootOut} (h : runBootstrap e alts reps conf day0 pi = .ok out) :
    ∃ fits, Spec.Weighs e out fits ∧ Spec.Weighted fits out.weights := by
  obtain ⟨cs, -, ⟨w, m, best, hw, hm, hb, hs, -⟩ | ⟨df, s2, hf, -⟩⟩ := runBootstrap_ok h
  · have hne : successes e cs ≠ [] := by
      intro hn
      rw [hn] at hb
      cases hb
    unfold smallResult at hs
    obtain ⟨y, -, hs⟩ := bind_ok'.mp hs
    cases hc : cellMean (best.ratio.map fun c => c.map fun v => 1 - v) with
    | none => rw [hc] at hs; cases hs
    | some v =>
      rw [hc] at hs
      cases hs
      refine ⟨_, fun d hd => .inr ⟨rfl, ?_⟩, weighted_of hw hne⟩
      obtain ⟨c, -, hc⟩ := List.mem_filterMap.mp hd
      refine ⟨c, ?_⟩
      cases hx : e.fit0 c with
      | error err => rw [hx] at hc; cases hc
      | ok d' =>
        rw [hx] at hc
        cases hc
        rfl
  · obtain ⟨-, -, -, -, -, -, -, -, -, -, hsm⟩ := stage3_ok hf.final
    refine ⟨_, fun d hd => .inl ⟨hsm, ?_⟩, (stage3_reported hf.final).weights⟩
    obtain ⟨b, -, x, hx⟩ := hf.kdfs d hd
    exact ⟨b, x, hx⟩

/-- **C42 (smaller error).** There is one weight for every fit that counts. Of two fits with the same share of days without soiling,
the one with the smaller error has the larger weight. -/
theorem C42_smaller_error {e : BootEnv} {alts : Alternatives} {reps : Nat} {conf : ℚ} {day0 : Int} {pi : List Cell}
    {out : BootOut} (h : runBootstrap e alts reps conf day0 pi = .ok out) :
    ∃ fits, Spec.Weighs e out fits ∧ fits.length = out.weights.length ∧ ∀ (i j : Nat) (a b : Decomp) (r s u v : ℚ),
      fits[i]? = some a → fits[j]? = some b → a.rmse = some r → b.rmse = some s →
      out.weights[i]? = some u → out.weights[j]? = some v → Spec.cleanShare a = Spec.cleanShare b → (r < s ↔ v < u) := by
  obtain ⟨fits, h1, hl, -, K, hK, hk⟩ := weighs_of_ok h
  refine ⟨fits, h1, hl.symm, fun i j a b r s u v ha hb hr hs hu hv hf => ?_⟩
  obtain ⟨r', hr', hr0, hi⟩ := hk i a ha
  obtain ⟨s', hs', hs0, hj⟩ := hk j b hb
  rw [hr] at hr'
  rw [hs] at hs'
  cases hr'
  cases hs'
  rw [hu] at hi
  rw [hv] at hj
  rw [Option.some.inj hi, Option.some.inj hj, hf]
  have hq : 0 ≤ Spec.cleanShare b := by rw [cleanShare_eq]; exact oneFraction_nonneg b
  rw [div_lt_div_iff_of_pos_left hK (by positivity) (by positivity)]
  exact (mul_lt_mul_iff_of_pos_right (by linarith)).symm

/-- **C42 (days without soiling).** Of two fits with the same error, the one with more days without any soiling has the smaller
weight. -/
theorem C42_no_soiling {e : BootEnv} {alts : Alternatives} {reps : Nat} {conf : ℚ} {day0 : Int} {pi : List Cell}
    {out : BootOut} (h : runBootstrap e alts reps conf day0 pi = .ok out) :
    ∃ fits, Spec.Weighs e out fits ∧ fits.length = out.weights.length ∧ ∀ (i j : Nat) (a b : Decomp) (u v : ℚ),
      fits[i]? = some a → fits[j]? = some b → a.rmse = b.rmse →
      out.weights[i]? = some u → out.weights[j]? = some v → (Spec.cleanShare a < Spec.cleanShare b ↔ v < u) := by
  obtain ⟨fits, h1, hl, -, K, hK, hk⟩ := weighs_of_ok h
  refine ⟨fits, h1, hl.symm, fun i j a b u v ha hb hr hu hv => ?_⟩
  obtain ⟨r, hr', hr0, hi⟩ := hk i a ha
  obtain ⟨s, hs', hs0, hj⟩ := hk j b hb
  rw [hr, hs'] at hr'
  cases hr'
  rw [hu] at hi
  rw [hv] at hj
  rw [Option.some.inj hi, Option.some.inj hj]
  have hq : 0 ≤ Spec.cleanShare a := by rw [cleanShare_eq]; exact oneFraction_nonneg a
  have hq' : 0 ≤ Spec.cleanShare b := by rw [cleanShare_eq]; exact oneFraction_nonneg b
  rw [div_lt_div_iff_of_pos_left hK (by positivity) (by positivity), mul_lt_mul_iff_of_pos_left hr0]
  constructor <;> intro hx <;> linarith

/-- **C138 (refits).** With bootstrapping, realization `k·P + j` (of `16·P`) refits the `j`-th resample of initial fit `k` - its model
times its residuals in random blocks of 90 days - divided by a seasonal component that is varied from the one of the same fit. Refits
fail with `ValueError` only. The refits that count are those whose residuals pass the stationarity test, all of them and in order, and
what is reported are weighted sums and quantiles of them and of their seasonal components. -/
theorem C138_refits {e : BootEnv} {alts : Alternatives} {reps : Nat} {conf : ℚ} {day0 : Int} {pi : List Cell}
    {out : BootOut} (h : runBootstrap e alts reps conf day0 pi = .ok out) (hs : out.small = false) :
    ∃ (cs : List Combo) (P : Nat) (x y : Nat → List Cell), combos alts = .ok cs ∧ reps ≤ 16 * P ∧ 16 * P < reps + 16 ∧
      (∀ (k j : Nat) (c : Combo), cs[k]? = some c → j < P → ∃ d st s, e.fit0 c = .ok d ∧ (e.starts k)[j]? = some st ∧
        bootstrapSamples .multiplicative pi d.total 90 [st] = .ok [s] ∧
        y (k * P + j) = (seasonalSample ((daysFrom day0 d.seasonal.length).zip d.seasonal) (e.draw k j).1 (e.draw k j).2).map
          Prod.snd ∧
        ∀ (i : Nat) (v : ℚ), cellAt (x (k * P + j)) i = some v ↔
          ∃ a b, cellAt s i = some a ∧ cellAt (y (k * P + j)) i = some b ∧ b ≠ 0 ∧ v = a / b) ∧
      (∀ b < 16 * P, (∃ d, e.refit b (x b) = .ok d) ∨ e.refit b (x b) = .error .valueError) ∧
      Spec.Reported conf pi.length out ((List.range (16 * P)).filterMap fun b => Spec.counted (e.refit b (x b)))
        ((List.range (16 * P)).filterMap fun b => (Spec.counted (e.refit b (x b))).map fun _ => y b) := by
  obtain ⟨cs, s1, w, scs, s2, df, hcs, hs1, hw, hscs, hs2, hdf, h3⟩ := runBootstrap_stages h hs
  obtain ⟨cs', df', s2', hcs', hf⟩ := full_of_ok h hs
  obtain rfl : cs = cs' := by rw [hcs] at hcs'; exact Except.ok.inj hcs'
  have hN := roundReps_mul reps
  obtain ⟨r1, r2, -⟩ := C41_realizations reps
  have hrep := stage3_reported h3
  unfold stage2 at hs2
  obtain ⟨g1, g2, g3⟩ := stage2_exact _ hs2
  generalize hP : roundReps reps / nrModels = P at *
  rw [hN] at g1 g2 g3 r1 r2
  have hcl := combos_length hcs
  have hall : ∀ c ∈ cs, ∃ d, e.fit0 c = .ok d ∧ d.adf.2 < 5 / 100 := fun c hc =>
    let ⟨d, h1, _, h2⟩ := hf.all c hc
    ⟨d, h1, h2⟩
  obtain ⟨f1, f2, f3⟩ := stage1_ok hs1
  -- the lists of samples are full
  have hacc : s1.samples.length ≤ 16 := by
    rw [f2]
    have := List.length_filter_le accepted (successes e cs)
    have := successes_length_le e cs
    omega
  have hfull : ∀ l ∈ s1.samples, l.length = P := by
    apply lengths_full f3
    by_cases hz : P = 0
    · simp [hz]
    · have := (g1 (16 * P - 1) (List.mem_range.mpr (by omega))).1
      have h16 : s1.samples.length * P ≤ 16 * P := Nat.mul_le_mul_right _ hacc
      omega
  have hwpos : ∀ v ∈ w, 0 < v := by
    have hne : s1.fits ≠ [] := by intro h0; rw [h0] at hdf; cases hdf
    exact (weightsOf_dist hw hne).2.1
  refine ⟨cs, P, refitted s1.samples.flatten (seasonalOf e day0 P scs), fun b => (seasonalOf e day0 P scs).getD b [], hcs, r1, r2,
    fun k j c hc hj => ?_, fun b hb => (g1 b (List.mem_range.mpr hb)).2.2, ?_⟩
  · have hk : k < 16 := by have := (List.getElem?_eq_some_iff.mp hc).1; omega
    obtain ⟨d, hd, -⟩ := hall c (List.mem_of_getElem? hc)
    have hat := stage1_at hs1 hall hc hd
    have hfit : s1.fits[k]? = some d := by
      rw [f1]
      have : (successes e cs).map some = cs.map fun c => match e.fit0 c with
          | .ok d => some d
          | .error _ => none := by
        have key : ∀ l : List Combo, (∀ c ∈ l, ∃ d, e.fit0 c = .ok d) → (successes e l).map some = l.map fun c => match e.fit0 c with
            | .ok d => some d
            | .error _ => none := by
          intro l
          induction l with
          | nil => intro _; rfl
          | cons c l ih =>
            intro hl
            obtain ⟨d, hd⟩ := hl c (List.mem_cons_self ..)
            have h1 := ih fun x hx => hl x (List.mem_cons_of_mem _ hx)
            have h2 : successes e (c :: l) = d :: successes e l := by
              unfold successes
              rw [List.filterMap_cons, hd]
            rw [h2]
            simp only [List.map_cons, hd, h1]
        exact key cs fun c hc => let ⟨d, h, _⟩ := hall c hc; ⟨d, h⟩
      have h4 := congrArg (fun l => l[k]?) this
      simp only [List.getElem?_map, hc, Option.map_some, hd] at h4
      cases hx : (successes e cs)[k]? with
      | none => rw [hx] at h4; cases h4
      | some y =>
        rw [hx] at h4
        simpa using h4
    have hsc : scs[k]? = some d.seasonal := by
      rw [positiveSeasonal_at hscs hwpos k hk, hfit]
      rfl
    have hlen := hfull _ (List.mem_of_getElem? hat)
    rw [List.length_map, List.length_take] at hlen
    have hjs : j < (e.starts k).length := by omega
    have hsample : s1.samples.flatten[k * P + j]? = some (sampleOf pi d.total ((e.starts k)[j]'hjs)) := by
      rw [flatten_uniform hfull k j hj, hat]
      simp only [Option.bind_some]
      rw [List.getElem?_map, List.getElem?_take_of_lt hj, List.getElem?_eq_getElem hjs]
      rfl
    have hy : (seasonalOf e day0 P scs)[k * P + j]? =
        some ((seasonalSample ((daysFrom day0 d.seasonal.length).zip d.seasonal) (e.draw k j).1 (e.draw k j).2).map Prod.snd) := by
      unfold seasonalOf
      rw [List.getElem?_map, seasonalSamples_at _ P e.draw hj (s := (daysFrom day0 d.seasonal.length).zip d.seasonal)
        (by rw [List.getElem?_map, hsc]; rfl)]
      rfl
    refine ⟨d, (e.starts k)[j]'hjs, sampleOf pi d.total ((e.starts k)[j]'hjs), hd, List.getElem?_eq_getElem hjs, rfl, ?_,
      fun i v => ?_⟩
    · simp only
      rw [List.getD_eq_getElem?_getD, hy]
      rfl
    · unfold refitted
      rw [cellAt_div, List.getD_eq_getElem?_getD (l := s1.samples.flatten), hsample]
      simp only [Option.getD_some]
      cases ha : cellAt (sampleOf pi d.total ((e.starts k)[j]'hjs)) i with
      | none => simp [cellDiv]
      | some a =>
        cases hb : cellAt ((seasonalOf e day0 P scs).getD (k * P + j) []) i with
        | none => simp [cellDiv]
        | some b =>
          unfold cellDiv
          by_cases h0 : b = 0
          · simp [h0]
          · simp [h0, eq_comm]
  · have e2 : s2.kdfs = (List.range (16 * P)).filterMap fun b =>
        Spec.counted (e.refit b (refitted s1.samples.flatten (seasonalOf e day0 P scs) b)) := by simpa using g2
    have e3 : s2.seasonal = (List.range (16 * P)).filterMap fun b =>
        (Spec.counted (e.refit b (refitted s1.samples.flatten (seasonalOf e day0 P scs) b))).map fun _ =>
          (seasonalOf e day0 P scs).getD b [] := by simpa using g3
    rw [← e2, ← e3]
    exact hrep

/-- **C138 (model).** The degradation trend reported is the straight line of the reported rate, and the model reported is the product of
trend, seasonal component and soiling ratio, times a shift that is the mean of the residuals, i.e. of the index divided by that
product. The ratio is between zero and one; its rate of change is zero on days on which it does not change. -/
theorem C138_model {e : BootEnv} {alts : Alternatives} {reps : Nat} {conf : ℚ} {day0 : Int} {pi : List Cell}
    {out : BootOut} (h : runBootstrap e alts reps conf day0 pi = .ok out) (hs : out.small = false) :
    (∀ i < pi.length, cellAt out.table.trend i = some (1 + i * out.degradation.1 / 36500)) ∧
    (∀ i v, cellAt out.table.residuals i = some v ↔ ∃ p t s r, cellAt pi i = some p ∧ cellAt out.table.trend i = some t ∧
      cellAt out.table.seasonal i = some s ∧ cellAt out.table.ratio i = some r ∧ t * s * r ≠ 0 ∧ v = p / (t * s * r)) ∧
    (∀ m, out.shift = some m ↔ out.table.residuals.filterMap id ≠ [] ∧
      m = (out.table.residuals.filterMap id).sum / (out.table.residuals.filterMap id).length) ∧
    (∀ i v, cellAt out.table.total i = some v ↔ ∃ t s r m, cellAt out.table.trend i = some t ∧
      cellAt out.table.seasonal i = some s ∧ cellAt out.table.ratio i = some r ∧ out.shift = some m ∧ v = t * s * r * m) ∧
    (∀ i r, cellAt out.table.ratio i = some r → 0 ≤ r ∧ r ≤ 1) ∧
    (∀ i r, i + 1 < out.table.rates.length → cellAt out.table.ratio i = some r → cellAt out.table.ratio (i + 1) = some r →
      cellAt out.table.rates (i + 1) = some 0) := by
  obtain ⟨cs, df, s2, -, hf⟩ := full_of_ok h hs
  have h3 := hf.final
  have hk := stage3_kdfs h3
  unfold stage3 at h3
  rw [if_neg hk] at h3
  by_cases hcf : lowEdge conf < 0 ∨ 1 < lowEdge conf ∨ highEdge conf < 0 ∨ 1 < highEdge conf
  · rw [if_pos hcf] at h3; cases h3
  rw [if_neg hcf] at h3
  obtain ⟨w, hw, h3⟩ := bind_ok'.mp h3
  simp only at h3
  by_cases hall : (s2.kdfs.map fun d => d.soilingLoss).all Option.isSome = true
  swap
  · rw [if_neg hall] at h3; cases h3
  rw [if_pos hall] at h3
  obtain ⟨a, -, h3⟩ := bind_ok'.mp h3
  cases h3
  simp only
  have mul_iff : ∀ (x y : Cell) (v : ℚ), cellOp (fun x y => x * y) x y = some v ↔ ∃ a b, x = some a ∧ y = some b ∧ v = a * b := by
    intro x y v
    cases x <;> cases y <;> simp [cellOp, eq_comm]
  refine ⟨fun i hi => ?_, fun i v => ?_, fun m => ?_, fun i v => ?_, fun i r hr => ?_,
    fun i r hi h1 h2 => ?_⟩
  · unfold linearTrend
    rw [cellAt_range _ hi]
    congr 1
    ring
  · rw [cellAt_div]
    constructor
    · intro hv
      cases hp : cellAt pi i with
      | none => rw [hp] at hv; simp [cellDiv] at hv
      | some p =>
        rw [hp] at hv
        cases ht : cellAt (cellsMul (cellsMul (linearTrend pi.length (dotQ (s2.kdfs.map fun d => d.degradation) w))
            ((List.range pi.length).map fun i => some (weightedRow w (rowAt s2.seasonal i)))) (clip01 df.ratio)) i with
        | none => rw [ht] at hv; simp [cellDiv] at hv
        | some q =>
          rw [ht] at hv
          rw [cellAt_mul] at ht
          obtain ⟨ts, r, h1, h2, rfl⟩ := (mul_iff _ _ _).mp ht
          rw [cellAt_mul] at h1
          obtain ⟨t, s, h3, h4, rfl⟩ := (mul_iff _ _ _).mp h1
          unfold cellDiv at hv
          by_cases h0 : t * s * r = 0
          · simp [h0] at hv
          · simp only [if_neg h0, Option.some.injEq] at hv
            exact ⟨p, t, s, r, rfl, h3, h4, h2, h0, hv.symm⟩
    · rintro ⟨p, t, s, r, hp, ht, hs', hr, h0, rfl⟩
      have h1 := (mul_iff _ _ (t * s)).mpr ⟨t, s, ht, hs', rfl⟩
      rw [← cellAt_mul] at h1
      have h2 := (mul_iff _ _ (t * s * r)).mpr ⟨t * s, r, h1, hr, rfl⟩
      rw [← cellAt_mul] at h2
      rw [hp, h2]
      unfold cellDiv
      simp only [if_neg h0]
  · unfold cellMean valids
    generalize List.filterMap id _ = l
    cases l with
    | nil => simp [mean]
    | cons x l =>
      simp only [mean, Option.some.injEq]
      exact ⟨fun h => ⟨by simp, h.symm⟩, fun h => h.2.symm⟩
  · rw [cellAt_map _ (by rfl), mul_iff]
    constructor
    · rintro ⟨q, m, hq, hm, rfl⟩
      rw [cellAt_mul] at hq
      obtain ⟨ts, r, h1, h2, rfl⟩ := (mul_iff _ _ _).mp hq
      rw [cellAt_mul] at h1
      obtain ⟨t, s, h3, h4, rfl⟩ := (mul_iff _ _ _).mp h1
      exact ⟨t, s, r, m, h3, h4, h2, hm, rfl⟩
    · rintro ⟨t, s, r, m, ht, hs', hr, hm, rfl⟩
      have h1 := (mul_iff _ _ (t * s)).mpr ⟨t, s, ht, hs', rfl⟩
      rw [← cellAt_mul] at h1
      have h2 := (mul_iff _ _ (t * s * r)).mpr ⟨t * s, r, h1, hr, rfl⟩
      rw [← cellAt_mul] at h2
      exact ⟨_, m, h2, hm, rfl⟩
  · unfold clip01 at hr
    rw [cellAt_map _ (by rfl)] at hr
    obtain ⟨x, -, rfl⟩ := Option.map_eq_some_iff.mp hr
    unfold clipQ
    exact ⟨by simp, by simp⟩
  · have hlt : i + 1 < (clip01 df.ratio).length := by
      by_contra hc
      unfold cellAt at h2
      rw [List.getElem?_eq_none (by omega)] at h2
      cases h2
    unfold zeroRates at hi ⊢
    rw [List.length_map, List.length_range] at hi
    rw [cellAt_range _ hi, if_pos]
    unfold cellDiff
    rw [cellAt_range _ hlt, if_neg (by omega), Nat.add_sub_cancel, h1, h2]
    simp [cellOp]

/-! ### Examples -/

-- the hypotheses of `C42_smaller_error`, `C42_no_soiling`, `C138_refits` and `C138_model` are met by the environment of the
-- examples of C41: sixteen refits count, the rate is -1 with the straight line of that rate
example : (runBootstrap (exBoot (fun _ => false) false) {} 10 50 19000 [some 1, some 1]).map
    (fun o => (o.weights.length, o.degradation.1, o.table.trend)) =
      .ok (16, -1, [some 1, some (36499 / 36500)]) := by decide +kernel
-- a refit with a thousandth of the error has the largest weight
example : (runBootstrap exSkew {} 16 50 19000 [some 1, some 1]).map
    (fun o => (decide ((o.weights.getD 1 0) * 1000 = o.weights.getD 0 0), o.weights.sum)) = .ok (true, 1) := by decide +kernel
-- a refit that fails or whose residuals do not pass the test does not count
example : (runBootstrap { exBoot (fun _ => false) false with
      refit := fun b _ => if b < 3 then .error .valueError
        else .ok (exFit [some 1, some (9 / 10)] 1 (if b < 6 then 1 / 2 else 1 / 100) (-1) (4 + b) false) } {} 16 50 19000
      [some 1, some 1]).map (fun o => (o.weights.length, o.soilingLoss.1)) = .ok (10, 29 / 2) := by decide +kernel

end Verif.Cods
