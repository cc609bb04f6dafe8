import Verif.Model.CodsFull
import Verif.Props.CodsReported
import Verif.Props.CodsFlat

/-! # Property C143: `soiling_cods` with its fits

Unlike in C40-C43, C74 and C138, the fits are here no parameters but signal decompositions; the routines of other packages and the
random numbers are arbitrary.
-/

namespace Verif.Cods

open Verif

theorem analysis_ok {w : CodsWorld} {fuel : Nat} {a : CodsArgs} {reps : Nat} {conf : ℚ} {daily : Bool} {day0 : Int} {pm : List Cell}
    {out : BootOut} (h : codsAnalysis w fuel a reps conf daily day0 pm = .ok out) :
    ∃ d l, codsInit daily day0 pm = .ok (d, l) ∧ runBootstrap (bootEnv w fuel a d l) a.alts reps conf d l = .ok out := by
  obtain ⟨⟨d, l⟩, h1, h⟩ := bind_ok'.mp h
  exact ⟨d, l, h1, h⟩

theorem refit_ok {w : CodsWorld} {fuel : Nat} {a : CodsArgs} {day0 : Int} {b : Nat} {x : List Cell} {d : Decomp}
    (h : refitSample w fuel a day0 b x = .ok d) : ∃ d0 s r, codsInit true day0 x = .ok (d0, s) ∧
      decompose (w.ext d0) fuel (refitOpts a (w.refitDraw b)) d0 s = .ok r ∧ d = onIndex (x.length - s.length) r := by
  obtain ⟨⟨d0, s⟩, h1, h⟩ := bind_ok'.mp h
  obtain ⟨r, h2, h⟩ := bind_ok'.mp h
  cases h
  exact ⟨d0, s, r, h1, h2, rfl⟩

theorem mem_successes {e : BootEnv} {cs : List Combo} {d : Decomp} (h : d ∈ successes e cs) : ∃ c ∈ cs, e.fit0 c = .ok d := by
  unfold successes at h
  obtain ⟨c, hc, h⟩ := List.mem_filterMap.mp h
  cases hf : e.fit0 c with
  | error _ => rw [hf] at h; cases h
  | ok d' => rw [hf] at h; cases h; exact ⟨c, hc, hf⟩

/-- the soiling of a fit is not negative -/
def Spec.Soiled (d : Decomp) : Prop := (∀ v, some v ∈ d.ratio → v ≤ 1) ∧ ∀ l, d.soilingLoss = some l → 0 ≤ l

theorem soiled_fit {e : DecompEnv} {fuel : Nat} {o : DecompOpts} {day0 : Int} {pi : List Cell} {d : Decomp}
    (h : decompose e fuel o day0 pi = .ok d) (hc : o.clip = true) : Spec.Soiled d :=
  ⟨(C71_ratio h hc).1, (C71_ratio h hc).2.1⟩

theorem soiled_refit {w : CodsWorld} {fuel : Nat} {a : CodsArgs} {day0 : Int} {b : Nat} {x : List Cell} {d : Decomp}
    (h : refitSample w fuel a day0 b x = .ok d) : Spec.Soiled d := by
  obtain ⟨d0, s, r, -, h2, rfl⟩ := refit_ok h
  obtain ⟨g1, g2⟩ := soiled_fit h2 rfl
  refine ⟨fun v hv => ?_, g2⟩
  rcases List.mem_append.mp hv with hv | hv
  · cases List.eq_of_mem_replicate hv
  · exact g1 v hv

theorem mean_nonneg' {l : List ℚ} {m : ℚ} (h : mean l = some m) (hl : ∀ x ∈ l, 0 ≤ x) : 0 ≤ m := by
  obtain ⟨-, rfl⟩ := mean_some h
  exact div_nonneg (List.sum_nonneg hl) (by positivity)

theorem dotQ_nonneg : ∀ {x w : List ℚ}, (∀ a ∈ x, 0 ≤ a) → (∀ a ∈ w, 0 ≤ a) → 0 ≤ dotQ x w
  | [], _, _, _ => by simp [dotQ]
  | _ :: _, [], _, _ => by simp [dotQ]
  | a :: x, b :: w, h1, h2 => by
    have := dotQ_nonneg (fun y hy => h1 y (List.mem_cons_of_mem a hy)) (fun y hy => h2 y (List.mem_cons_of_mem b hy))
    unfold dotQ at this ⊢
    rw [List.zipWith_cons_cons, List.sum_cons]
    exact add_nonneg (mul_nonneg (h1 a (List.mem_cons_self ..)) (h2 b (List.mem_cons_self ..))) this

theorem weightedRow_le_one : ∀ {w : List ℚ} {row : List Cell}, row.length = w.length → (∀ a ∈ w, 0 < a) →
    (∀ v, some v ∈ row → v ≤ 1) → weightedRow w row ≤ w.sum
  | [], [], _, _, _ => by simp [weightedRow]
  | a :: w, c :: row, hl, h1, h2 => by
    have ih := weightedRow_le_one (w := w) (row := row) (by simpa using hl) (fun x hx => h1 x (List.mem_cons_of_mem a hx))
      (fun v hv => h2 v (List.mem_cons_of_mem c hv))
    unfold weightedRow at ih ⊢
    rw [List.zipWith_cons_cons, List.sum_cons, List.sum_cons]
    have ha := h1 a (List.mem_cons_self ..)
    have hc : c.getD 0 ≤ 1 := by
      cases c with
      | none => norm_num
      | some v => exact h2 v (List.mem_cons_self ..)
    have : c.getD 0 * a ≤ 1 * a := mul_le_mul_of_nonneg_right hc ha.le
    linarith

theorem rowQuantile_le_one {n : Nat} {cols : List (List Cell)} {q : ℚ} (h0 : 0 ≤ q) (h1 : q ≤ 1)
    (h : ∀ c ∈ cols, ∀ v, some v ∈ c → v ≤ 1) : ∀ v, some v ∈ rowQuantile n cols q → v ≤ 1 := by
  intro v hv
  unfold rowQuantile at hv
  obtain ⟨i, -, hq⟩ := List.mem_map.mp hv
  unfold cellQuantile at hq
  refine quantile_le hq h0 h1 fun x hx => ?_
  obtain ⟨c, hc, hx⟩ := List.mem_map.mp (mem_valids.mp hx)
  exact h c hc x (cellAt_mem hx)

/-- **C143 (no gain by soiling).** Whatever the series, the options, the random numbers and the results of other packages: no soiling
ratio that `soiling_cods` reports exceeds one, and no soiling loss is negative - neither the estimates nor their bounds, neither for
the series as a whole nor for a day. -/
theorem C143_no_gain {w : CodsWorld} {fuel : Nat} {a : CodsArgs} {reps : Nat} {conf : ℚ} {daily : Bool} {day0 : Int} {pm : List Cell}
    {out : BootOut} (h : codsAnalysis w fuel a reps conf daily day0 pm = .ok out) :
    0 ≤ out.soilingLoss.1 ∧ (∀ l, out.soilingLoss.2.1 = some l → 0 ≤ l) ∧ (∀ l, out.soilingLoss.2.2 = some l → 0 ≤ l) ∧
    (∀ v, some v ∈ out.table.ratio → v ≤ 1) ∧ (∀ v ∈ out.table.btRatio, v ≤ 1) ∧
    (∀ v, some v ∈ out.table.srLow → v ≤ 1) ∧ ∀ v, some v ∈ out.table.srHigh → v ≤ 1 := by
  obtain ⟨d0, pi, -, h⟩ := analysis_ok h
  have hfit : ∀ c d, (bootEnv w fuel a d0 pi).fit0 c = .ok d → Spec.Soiled d := fun c d hd => soiled_fit hd rfl
  obtain ⟨cs, -, ⟨wt, m, best, hw, hm, hb, hs, -⟩ | ⟨df, s2, hf, -⟩⟩ := runBootstrap_ok h
  · obtain ⟨c, -, hc⟩ := mem_successes (List.mem_of_getElem? hb)
    have hso := hfit c best hc
    unfold smallResult at hs
    obtain ⟨y, -, hs⟩ := bind_ok'.mp hs
    cases hmean : cellMean (best.ratio.map fun c => c.map fun v => 1 - v) with
    | none => rw [hmean] at hs; cases hs
    | some v =>
      rw [hmean] at hs
      cases hs
      have hv : 0 ≤ v := by
        refine mean_nonneg' hmean fun x hx => ?_
        obtain ⟨c, hc, e⟩ := List.mem_map.mp (mem_valids.mp hx)
        cases c with
        | none => cases e
        | some u =>
          cases e
          have := hso.1 u hc
          linarith
      refine ⟨le_rfl, fun l hl => by cases hl; exact le_rfl, fun l hl => by cases hl; exact hv, hso.1, ?_, ?_, ?_⟩
      · intro v hv; cases hv
      · intro v hv; cases hv
      · intro v hv; cases hv
  · have hk := stage3_kdfs hf.final
    obtain ⟨hw, ⟨l0, l0', l1, l1'⟩, hsl, hr, hlo, hhi, hbt, -, -, hloss, -⟩ := stage3_ok hf.final
    obtain ⟨hl, hp, hsum⟩ := weightsOf_dist hw hk
    have hso : ∀ d ∈ s2.kdfs, Spec.Soiled d := by
      intro d hd
      obtain ⟨b, -, x, hx, -⟩ := hf.kdfs d hd
      exact soiled_refit hx
    have hv : ∀ x ∈ valids (s2.kdfs.map fun d => d.soilingLoss), 0 ≤ x := by
      intro x hx
      obtain ⟨d, hd, e⟩ := List.mem_map.mp (mem_valids.mp hx)
      exact (hso d hd).2 x e
    have hq : ∀ q l, 0 ≤ q → q ≤ 1 → lossQuantile s2.kdfs q = some l → 0 ≤ l := by
      intro q l q0 q1 hl
      unfold lossQuantile npQuantile at hl
      split_ifs at hl
      exact quantile_ge hl q0 q1 hv
    have hcols : ∀ c ∈ s2.kdfs.map (fun d => d.ratio), ∀ v, some v ∈ c → v ≤ 1 := by
      intro c hc v hv
      obtain ⟨d, hd, rfl⟩ := List.mem_map.mp hc
      exact (hso d hd).1 v hv
    rw [hloss, hr, hlo, hhi, hbt]
    refine ⟨dotQ_nonneg hv fun x hx => (hp x hx).le, fun l => hq _ l l0 l0', fun l => hq _ l l1 l1', ?_, ?_,
      rowQuantile_le_one l0 l0' hcols, rowQuantile_le_one l1 l1' hcols⟩
    · intro v hv
      unfold clip01 at hv
      obtain ⟨c, -, e⟩ := List.mem_map.mp hv
      obtain ⟨x, -, rfl⟩ := Option.map_eq_some_iff.mp e
      unfold clipQ
      simp
    · intro v hv
      obtain ⟨i, -, rfl⟩ := List.mem_map.mp hv
      rw [← hsum]
      refine weightedRow_le_one (by simp [rowAt, hl]) hp fun v hv => ?_
      unfold rowAt at hv
      obtain ⟨c, hc, e⟩ := List.mem_map.mp hv
      exact hcols c hc v (cellAt_mem e)

/-- **C143 (returned ratio).** The soiling ratio returned by `soiling_cods` and the bounds of its interval do not exceed one. -/
theorem C143_returned {w : CodsWorld} {fuel : Nat} {a : CodsArgs} {reps : Nat} {conf : ℚ} {daily : Bool} {day0 : Int} {pm : List Cell}
    {r : CodsResult} (h : soilingCodsFull w fuel a reps conf daily day0 pm = .ok r) :
    r.sr ≤ 1 ∧ (∀ v, r.srCI.1 = some v → v ≤ 1) ∧ ∀ v, r.srCI.2 = some v → v ≤ 1 := by
  obtain ⟨out, h1, rfl⟩ := map_ok.mp h
  obtain ⟨g1, g2, g3, -⟩ := C143_no_gain h1
  unfold codsResult
  refine ⟨?_, fun v hv => ?_, fun v hv => ?_⟩
  · simp only
    linarith
  · obtain ⟨x, hx, rfl⟩ := Option.map_eq_some_iff.mp hv
    have := g2 x hx
    linarith
  · obtain ⟨x, hx, rfl⟩ := Option.map_eq_some_iff.mp hv
    have := g3 x hx
    linarith

/-! ## What the fits are given -/

/-- alternative number `k` of 16: the forward fill changes fastest, the order of the components slowest -/
structure Spec.Alternative (alts : Alternatives) (k : Nat) (order : List Comp) (cleaning pruning : ℚ) (fill : Bool) : Prop where
  order : alts.orders[k / 8]? = some order
  cleaning : alts.cleaning[k / 4 % 2]? = some cleaning
  pruning : alts.pruning[k / 2 % 2]? = some pruning
  fill : alts.fill[k % 2]? = some fill

theorem indexList_at : ∀ k < 16, indexList[k]? = some (k / 8, k / 4 % 2, k / 2 % 2, k % 2) := by decide

theorem combos_at {alts : Alternatives} {cs : List Combo} (h : combos alts = .ok cs) {k : Nat} (hk : k < 16) :
    ∃ c, cs[k]? = some c ∧ Spec.Alternative alts k c.1 c.2.1 c.2.2.1 c.2.2.2 := by
  have hlen := combos_length h
  refine ⟨cs[k]'(by omega), List.getElem?_eq_getElem _, ?_⟩
  have hc : combo alts (k / 8, k / 4 % 2, k / 2 % 2, k % 2) = .ok (cs[k]'(by omega)) := by
    have key : ∀ (l : List (Nat × Nat × Nat × Nat)) (cs : List Combo), l.mapM (combo alts) = .ok cs → ∀ (k : Nat) ix c, l[k]? = some ix →
        cs[k]? = some c → combo alts ix = .ok c := by
      intro l
      induction l with
      | nil => intro cs _ k ix c hk; cases hk
      | cons i l ih =>
        intro cs hm k ix c h1 h2
        rw [List.mapM_cons] at hm
        obtain ⟨a, ha, hm⟩ := bind_ok'.mp hm
        obtain ⟨b, hb, hm⟩ := bind_ok'.mp hm
        cases hm
        cases k with
        | zero => cases h1; cases h2; exact ha
        | succ k => exact ih b hb k ix c (by simpa using h1) (by simpa using h2)
    exact key _ _ h k _ _ (indexList_at k hk) (List.getElem?_eq_getElem _)
  unfold combo at hc
  obtain ⟨o, ho, hc⟩ := bind_ok'.mp hc
  obtain ⟨c, hcl, hc⟩ := bind_ok'.mp hc
  obtain ⟨p, hp, hc⟩ := bind_ok'.mp hc
  obtain ⟨f, hf, hc⟩ := bind_ok'.mp hc
  have e : (o, c, p, f) = cs[k]'(by omega) := Except.ok.inj hc
  rw [← e]
  exact ⟨getE_ok ho, getE_ok hcl, getE_ok hp, getE_ok hf⟩

/-- between two numbers, whichever is larger -/
def Spec.Between (a b x : ℚ) : Prop := min a b ≤ x ∧ x ≤ max a b

/-- the random numbers are between zero and one -/
def Spec.UnitDraw (d : RefitDraw) : Prop :=
  (0 ≤ d.u1 ∧ d.u1 ≤ 1) ∧ (0 ≤ d.u2 ∧ d.u2 ≤ 1) ∧ (0 ≤ d.u3 ∧ d.u3 ≤ 1) ∧ 0 ≤ d.u4 ∧ d.u4 ≤ 1

/-- the arguments of a refit: soiling and one other component, four iterations, random sensitivities between the first and the last
alternative, a process noise between two thirds and three halves of the one asked for, a renormalization between 0.5 and 0.95 if it is drawn,
and the filling that is drawn -/
structure Spec.RefitArgs (a : CodsArgs) (d : RefitDraw) (o : DecompOpts) : Prop where
  order : o.order = if a.stl then [.SR, .SC] else [.SR, .Rd]
  method : o.stl = a.stl
  iterations : o.maxIterations = 4 ∧ o.pruningIterations = 1
  clip : o.clip = true
  cleaning : ∀ x y, a.alts.cleaning.head? = some x → a.alts.cleaning.getLast? = some y → Spec.Between x y o.cleaning
  pruning : ∀ x y, a.alts.pruning.head? = some x → a.alts.pruning.getLast? = some y → Spec.Between x y o.pruning
  noise : Spec.Between (a.processNoise * (2 / 3)) (a.processNoise * (3 / 2)) o.processNoise
  level : ∀ v, o.renorm = some v → 1 / 2 ≤ v ∧ v ≤ 95 / 100
  limits : o.criterion = a.criterion ∧ o.significance = a.significance
  drawn : (o.renorm.isSome = true ↔ d.renormalize = true) ∧ o.fwd = d.fill

/-- a column that starts `k` days later -/
def Spec.Later (k : Nat) (x y : List Cell) : Prop := (∀ i < k, cellAt y i = none) ∧ ∀ i, cellAt y (k + i) = cellAt x i

/-- a fit on the days of an index that starts `k` days earlier -/
structure Spec.Placed (k : Nat) (fit r : Decomp) : Prop where
  ratio : Spec.Later k fit.ratio r.ratio
  rates : Spec.Later k fit.rates r.rates
  seasonal : Spec.Later k fit.seasonal r.seasonal
  trend : Spec.Later k fit.trend r.trend
  total : Spec.Later k fit.total r.total
  residuals : Spec.Later k fit.residuals r.residuals
  events : (∀ i < k, getB r.events i = false) ∧ ∀ i, getB r.events (k + i) = getB fit.events i
  results : r.degradation = fit.degradation ∧ r.soilingLoss = fit.soilingLoss ∧ r.rmse = fit.rmse ∧ r.adf = fit.adf
  share : r.ratio.length - r.first = fit.ratio.length

theorem uniform_between {lo hi u : ℚ} (h0 : 0 ≤ u) (h1 : u ≤ 1) : Spec.Between lo hi (uniform lo hi u) := by
  unfold Spec.Between uniform
  rcases le_total lo hi with h | h
  · rw [min_eq_left h, max_eq_right h]
    have := mul_nonneg (sub_nonneg.mpr h) h0
    have := mul_nonneg (sub_nonneg.mpr h) (sub_nonneg.mpr h1)
    constructor <;> nlinarith
  · rw [min_eq_right h, max_eq_left h]
    have := mul_nonneg (sub_nonneg.mpr h) h0
    have := mul_nonneg (sub_nonneg.mpr h) (sub_nonneg.mpr h1)
    constructor <;> nlinarith

theorem refitOpts_args {a : CodsArgs} {d : RefitDraw} (h : Spec.UnitDraw d) : Spec.RefitArgs a d (refitOpts a d) := by
  obtain ⟨⟨h1, h1'⟩, ⟨h2, h2'⟩, ⟨h3, h3'⟩, h4, h4'⟩ := h
  refine ⟨?_, rfl, ⟨rfl, rfl⟩, rfl, fun x y hx hy => ?_, fun x y hx hy => ?_, ?_, fun v hv => ?_, ⟨rfl, rfl⟩, ?_, rfl⟩
  · unfold refitOpts
    cases a.stl <;> rfl
  · have := uniform_between (lo := x) (hi := y) h1 h1'
    unfold refitOpts
    simp only [List.headD_eq_head?_getD, List.getLastD_eq_getLast?, hx, hy, Option.getD_some]
    exact this
  · have := uniform_between (lo := x) (hi := y) h2 h2'
    unfold refitOpts
    simp only [List.headD_eq_head?_getD, List.getLastD_eq_getLast?, hx, hy, Option.getD_some]
    exact this
  · have := uniform_between (lo := a.processNoise / (3 / 2)) (hi := a.processNoise * (3 / 2)) h3 h3'
    rw [show a.processNoise * (2 / 3) = a.processNoise / (3 / 2) by ring]
    exact this
  · unfold refitOpts at hv
    simp only at hv
    split_ifs at hv
    have := uniform_between (lo := 1 / 2) (hi := 95 / 100) h4 h4'
    cases hv
    unfold Spec.Between at this
    rw [min_eq_left (by norm_num), max_eq_right (by norm_num)] at this
    exact this
  · unfold refitOpts
    cases d.renormalize <;> simp

theorem later_replicate (k : Nat) (x : List Cell) : Spec.Later k x (List.replicate k none ++ x) := by
  unfold Spec.Later cellAt
  refine ⟨fun i hi => ?_, fun i => ?_⟩
  · rw [List.getElem?_append_left (by simpa using hi), List.getElem?_replicate, if_pos hi]
    rfl
  · rw [List.getElem?_append_right (by simp), List.length_replicate, Nat.add_sub_cancel_left]

theorem placed_onIndex (k : Nat) (d : Decomp) : Spec.Placed k d (onIndex k d) := by
  refine ⟨later_replicate k _, later_replicate k _, later_replicate k _, later_replicate k _, later_replicate k _,
    later_replicate k _, ⟨fun i hi => ?_, fun i => ?_⟩, ⟨rfl, rfl, rfl, rfl⟩, ?_⟩
  · unfold onIndex getB
    simp only
    rw [List.getD_eq_getElem?_getD, List.getElem?_append_left (by simpa using hi)]
    simp [List.getElem?_replicate, hi]
  · unfold onIndex getB
    simp only
    rw [List.getD_eq_getElem?_getD, List.getD_eq_getElem?_getD, List.getElem?_append_right (by simp), List.length_replicate,
      Nat.add_sub_cancel_left]
  · simp [onIndex]

/-- what `codsInit` drops is missing -/
theorem init_drop {day0 : Int} {x s : List Cell} {d0 : Int} (h : codsInit true day0 x = .ok (d0, s)) :
    ∃ k ≤ x.length, s = x.drop k ∧ d0 = day0 + k ∧ x.length - s.length = k ∧ (∀ i < k, cellAt x i = none) := by
  unfold codsInit at h
  simp only [Bool.not_true, Bool.false_eq_true, if_false] at h
  split_ifs at h with h1 h3
  · cases h
    exact ⟨0, by omega, by simp, by simp, by simp, fun i hi => by omega⟩
  · cases h
    refine ⟨leadingMissing x, leadingMissing_le x, rfl, rfl, ?_, fun i hi => ?_⟩
    · have := leadingMissing_le x
      rw [List.length_drop]
      omega
    · cases hc : cellAt x i with
      | none => rfl
      | some v =>
        have := (leadingMissing_spec x).1 (some v) ?_
        · cases this
        · have hm := cellAt_lt hc
          unfold cellAt at hc
          rw [List.getElem?_eq_getElem hm] at hc
          rw [List.mem_iff_getElem?]
          refine ⟨i, ?_⟩
          rw [List.getElem?_take_of_lt hi, List.getElem?_eq_getElem hm]
          simpa using hc

/-- **C143 (run).** What a run of `soiling_cods` with bootstrapping consists of. Initial fit `k` of sixteen is a signal decomposition
of the series with the `k`-th combination of the alternatives, at most 18 iterations and no renormalization, whose residuals pass the
stationarity test; the soiling ratio returned is the one of the last of them, limited to 0..1. Realization `k·P + j` is a signal
decomposition of the `j`-th resample of initial fit `k` divided by a varied seasonal component, from its first value on, with random
sensitivities. The results are weighted sums and quantiles of the realizations whose residuals pass the test. -/
theorem C143_run {w : CodsWorld} (hu : ∀ b, Spec.UnitDraw (w.refitDraw b)) {fuel : Nat} {a : CodsArgs} {reps : Nat} {conf : ℚ}
    {daily : Bool} {day0 : Int} {pm : List Cell} {out : BootOut}
    (h : codsAnalysis w fuel a reps conf daily day0 pm = .ok out) (hs : out.small = false) :
    ∃ (d : Int) (l : List Cell) (P : Nat) (x y : Nat → List Cell) (fit : Nat → Decomp) (re : Nat → Option Decomp),
      codsInit daily day0 pm = .ok (d, l) ∧ reps ≤ 16 * P ∧ 16 * P < reps + 16 ∧
      (∀ k < 16, ∃ order c p f, Spec.Alternative a.alts k order c p f ∧
        decompose (w.ext d) fuel { order := order, stl := a.stl, maxIterations := 18, cleaning := c, criterion := a.criterion, pruningIterations := 1, pruning := p, significance := a.significance, processNoise := a.processNoise, renorm := none, fwd := f, clip := true } d l = .ok (fit k) ∧
        (fit k).adf.2 < 5 / 100) ∧
      (∀ i v, cellAt out.table.ratio i = some v ↔ ∃ r, cellAt (fit 15).ratio i = some r ∧ v = min 1 (max 0 r)) ∧
      (∀ k j, k < 16 → j < P → ∃ st s, (w.starts k)[j]? = some st ∧
        bootstrapSamples .multiplicative l (fit k).total 90 [st] = .ok [s] ∧
        y (k * P + j) = (seasonalSample ((daysFrom d (fit k).seasonal.length).zip (fit k).seasonal) (w.draw k j).1
          (w.draw k j).2).map Prod.snd ∧
        ∀ (i : Nat) (v : ℚ), cellAt (x (k * P + j)) i = some v ↔
          ∃ u z, cellAt s i = some u ∧ cellAt (y (k * P + j)) i = some z ∧ z ≠ 0 ∧ v = u / z) ∧
      (∀ b < 16 * P, ∀ r, re b = some r ↔ ∃ (o : DecompOpts) (k : Nat) (q : Decomp), o = refitOpts a (w.refitDraw b) ∧ Spec.RefitArgs a (w.refitDraw b) o ∧
        codsInit true d (x b) = .ok (d + k, (x b).drop k) ∧
        (∀ i < k, cellAt (x b) i = none) ∧ decompose (w.ext (d + k)) fuel o (d + k) ((x b).drop k) = .ok q ∧ q.adf.2 < 5 / 100 ∧
        r = onIndex k q ∧ Spec.Placed k q r) ∧
      Spec.Reported conf l.length out ((List.range (16 * P)).filterMap re)
        ((List.range (16 * P)).filterMap fun b => (re b).map fun _ => y b) := by
  obtain ⟨d, l, hi, h⟩ := analysis_ok h
  obtain ⟨cs, P, x, y, hcs, r1, r2, hsam, -, hrep⟩ := C138_refits h hs
  obtain ⟨cs', df, s2, hcs', hf⟩ := full_of_ok h hs
  obtain rfl : cs = cs' := by rw [hcs] at hcs'; exact Except.ok.inj hcs'
  obtain ⟨cs', c15, d15, hcs', hc15, hd15, hratio⟩ := C40_last h hs
  obtain rfl : cs = cs' := by rw [hcs] at hcs'; exact Except.ok.inj hcs'
  have hall : ∀ k : Fin 16, ∃ c q, cs[k.1]? = some c ∧ Spec.Alternative a.alts k c.1 c.2.1 c.2.2.1 c.2.2.2 ∧
      (bootEnv w fuel a d l).fit0 c = .ok q ∧ q.adf.2 < 5 / 100 := by
    intro k
    obtain ⟨c, hc, hal⟩ := combos_at hcs k.2
    obtain ⟨q, hq, -, hadf⟩ := hf.all c (List.mem_of_getElem? hc)
    exact ⟨c, q, hc, hal, hq, hadf⟩
  choose cf qf hcf halt hqf hadf using hall
  refine ⟨d, l, P, x, y, fun k => qf (Fin.ofNat 16 k), fun b => Spec.counted ((bootEnv w fuel a d l).refit b (x b)), hi, r1, r2,
    fun k hk => ?_, fun i v => ?_, fun k j hk hj => ?_, fun b hb r => ?_, hrep⟩
  · have e : Fin.ofNat 16 k = ⟨k, hk⟩ := Fin.ext (Nat.mod_eq_of_lt hk)
    simp only [e]
    exact ⟨_, _, _, _, halt ⟨k, hk⟩, hqf ⟨k, hk⟩, hadf ⟨k, hk⟩⟩
  · have e : Fin.ofNat 16 15 = ⟨15, by norm_num⟩ := rfl
    have hq : qf ⟨15, by norm_num⟩ = d15 := by
      have h1 := hcf ⟨15, by norm_num⟩
      rw [hc15] at h1
      have h2 := hqf ⟨15, by norm_num⟩
      rw [← Option.some.inj h1, hd15] at h2
      exact (Except.ok.inj h2).symm
    simp only [e, hq, hratio]
    rw [cellAt_map _ (by rfl), Option.map_eq_some_iff]
    constructor
    · rintro ⟨r, hr, rfl⟩
      exact ⟨r, hr, rfl⟩
    · rintro ⟨r, hr, rfl⟩
      exact ⟨r, hr, rfl⟩
  · have e : Fin.ofNat 16 k = ⟨k, hk⟩ := Fin.ext (Nat.mod_eq_of_lt hk)
    simp only [e]
    obtain ⟨q, st, s, hq, hst, hbs, hy, hx⟩ := hsam k j _ (hcf ⟨k, hk⟩) hj
    have h2 := hqf ⟨k, hk⟩
    rw [hq] at h2
    obtain rfl := Except.ok.inj h2
    exact ⟨st, s, hst, hbs, hy, hx⟩
  · show Spec.counted (refitSample w fuel a d b (x b)) = some r ↔ _
    constructor
    · intro hr
      cases hx : refitSample w fuel a d b (x b) with
      | error er => rw [hx] at hr; cases hr
      | ok r' =>
        rw [hx] at hr
        unfold Spec.counted at hr
        simp only at hr
        split_ifs at hr with hp
        cases hr
        obtain ⟨d0, s, q, hin, hq, rfl⟩ := refit_ok hx
        obtain ⟨k, -, rfl, rfl, hlen, hmiss⟩ := init_drop hin
        rw [hlen]
        exact ⟨_, k, q, rfl, refitOpts_args (hu b), hin, hmiss, hq, hp, rfl, placed_onIndex k q⟩
    · rintro ⟨o, k, q, rfl, -, hin, hmiss, hq, hp, rfl, -⟩
      have hx : refitSample w fuel a d b (x b) = .ok (onIndex k q) := by
        unfold refitSample
        rw [hin]
        show (decompose _ _ _ _ _ >>= _) = _
        simp only
        rw [hq]
        obtain ⟨k', hk', e1, e2, hlen, -⟩ := init_drop hin
        have : k' = k := by omega
        subst this
        show Except.ok (onIndex _ q) = _
        rw [hlen]
      rw [hx]
      unfold Spec.counted
      simp only
      rw [if_pos]
      exact hp

/-- **C143 (leading gap).** Missing days before the first reading make no difference to `soiling_cods`. -/
theorem C143_leading_gap (w : CodsWorld) (fuel : Nat) (a : CodsArgs) (reps : Nat) (conf : ℚ) (daily : Bool) (day0 : Int)
    {pm : List Cell} (hp : ∃ v, some v ∈ pm) (k : Nat) :
    soilingCodsFull w fuel a reps conf daily day0 (List.replicate k none ++ pm) =
      soilingCodsFull w fuel a reps conf daily (day0 + k) pm := by
  unfold soilingCodsFull codsAnalysis
  rw [init_leading daily day0 hp k]

theorem rmse_none {sqrt : ℚ → ℚ} {y p : List Cell} (h : ∀ v, some v ∉ p) : rmse sqrt y p = none := by
  have : valids (List.zipWith (cellOp fun a b => (b - a) ^ 2) y p) = [] := by
    rw [List.eq_nil_iff_forall_not_mem]
    intro v hv
    obtain ⟨i, hi⟩ := exists_cellAt (mem_valids.mp hv)
    rw [cellAt_zipWith (by intro a; cases a <;> rfl) (by intro a; cases a <;> rfl)] at hi
    cases hx : cellAt p i with
    | none => rw [hx] at hi; generalize cellAt y i = q at hi; cases q <;> cases hi
    | some u => exact h u (cellAt_mem hx)
  unfold rmse
  rw [this]
  rfl

theorem rmse_positive {fits : List Decomp} {w : List ℚ} (h : weightsOf fits = .ok w) : ∀ d ∈ fits, d.rmse ≠ none := by
  unfold weightsOf at h
  cases hp : positiveRmse fits with
  | none => rw [hp] at h; cases h
  | some rs =>
    intro d hd he
    have h1 := (positiveRmse_ok hp).1
    have : d.rmse ∈ fits.map fun d => d.rmse := List.mem_map_of_mem hd
    rw [h1, he] at this
    obtain ⟨r, -, e⟩ := List.mem_map.mp this
    cases e

/-- **C143 (negation: flat index).** For a performance index that is the same number every day - no soiling, no degradation, no
season - `soiling_cods` gives no result, if the other packages find no season and no degradation in a flat signal. -/
theorem C143_flat_refuted {w : CodsWorld} (he : ∀ d, Spec.envFlat (w.ext d)) {fuel : Nat} {a : CodsArgs} {reps : Nat} {conf : ℚ}
    {daily : Bool} {day0 : Int} {pm : List Cell} {c : ℚ} (hc : c ≠ 0) (hpm : Spec.Flat c pm) (r : CodsResult) :
    soilingCodsFull w fuel a reps conf daily day0 pm ≠ .ok r := by
  intro h
  obtain ⟨out, h, -⟩ := map_ok.mp h
  obtain ⟨d0, pi, hin, h⟩ := analysis_ok h
  have hpi : Spec.Flat c pi := by
    unfold codsInit at hin
    split_ifs at hin
    · cases hin; exact hpm
    · cases hin
      exact fun v hv => hpm v (List.mem_of_mem_drop hv)
  have hfit : ∀ cc d, (bootEnv w fuel a d0 pi).fit0 cc = .ok d → d.rmse = none := by
    intro cc d hd
    have hno := C72_flat_refuted (he d0) (o := fitOpts a cc) rfl hc hpi hd
    obtain ⟨st, hf, -⟩ := decompose_finish hd
    obtain ⟨k, -, -, -, -, -, -, -, hsh, htot, -, -, hrm, -⟩ := finish_ok hf
    rw [hrm]
    apply rmse_none
    intro v hv
    have hsh' : d.shift = none := by
      rw [hsh]
      have : valids d.residuals = [] := by
        rw [List.eq_nil_iff_forall_not_mem]
        exact fun v hv => hno v (mem_valids.mp hv)
      unfold cellMean
      rw [this]
      rfl
    rw [htot, hsh'] at hv
    obtain ⟨x, -, e⟩ := List.mem_map.mp hv
    cases x <;> cases e
  have hex : ∃ cs wt d, weightsOf (successes (bootEnv w fuel a d0 pi) cs) = .ok wt ∧ d ∈ successes (bootEnv w fuel a d0 pi) cs := by
    obtain ⟨cs, hcs, ⟨wt, m, best, hw, hm, hb, hs, -⟩ | ⟨df, s2, hf, -⟩⟩ := runBootstrap_ok h
    · exact ⟨cs, wt, best, hw, List.mem_of_getElem? hb⟩
    · have hs := (stage3_ok hf.final).2.2.2.2.2.2.2.2.2.2
      obtain ⟨cs', s1, wt, scs, s2', df', hcs', hs1, hw, -, -, hdf, -⟩ := runBootstrap_stages h hs
      obtain ⟨f1, -, -⟩ := stage1_ok hs1
      rw [f1] at hw hdf
      exact ⟨cs', wt, df', hw, List.mem_of_getLast? hdf⟩
  obtain ⟨cs, wt, d, hw, hd⟩ := hex
  obtain ⟨cc, -, hcc⟩ := mem_successes hd
  exact rmse_positive hw d hd (hfit cc d hcc)

/-! ### Examples -/

/-- the packages of `exEnv`, blocks that begin at the first day, a seasonal component that is not varied, and parameters in the middle -/
def exWorld : CodsWorld :=
  ⟨fun _ => exEnv, fun _ => [[0]], fun _ _ => (1, 1), fun _ => ⟨1 / 2, 1 / 2, 1 / 2, 1 / 2, false, true⟩, fun _ => .ok (0, 0, 0)⟩

example : ∀ b, Spec.UnitDraw (exWorld.refitDraw b) := by
  intro b
  refine ⟨?_, ?_, ?_, ?_⟩ <;> constructor <;> norm_num [exWorld]

-- an initial fit with one of the alternatives
example : (decompose exEnv 3 (fitOpts { significance := -1, criterion := 1 } ([.SR, .Rd], 1 / 4, 3 / 2, true)) 19000 exPi).map
    (fun d => (d.small, d.degradation)) = .ok (false, -73 / 2) := by decide +kernel

-- a refit for a sample whose first day is missing: the columns have the days of the sample
example : (refitSample exWorld 3 { significance := -1, criterion := 1 } 19000 0 (none :: exPi)).map
    (fun d => (d.first, d.ratio.length, d.ratio.head?)) = .ok (1, 15, some none) := by decide +kernel

-- packages that find nothing in a flat signal
example : Spec.envFlat { exEnv with yoy := fun _ => .ok 0 } := by
  refine ⟨?_, ?_⟩
  · rintro c x s - h
    cases h
    exact ⟨flat_map fun _ _ v hv => by cases hv; rfl, 1, flat_map fun _ _ v hv => by cases hv; rfl⟩
  · rintro c x d - h
    cases h
    rfl

end Verif.Cods
