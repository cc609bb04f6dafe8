import Verif.Lemmas.CodsBootstrap
import Verif.Lemmas.CodsCollapse

/-! # Properties C40 to C43, C73 and C74: the CODS bootstrap -/

namespace Verif.Cods

open Verif

/-! ## Weights -/

/-- probability distribution -/
def Spec.Distribution (w : List ℚ) : Prop := (∀ x ∈ w, 0 < x) ∧ w.sum = 1

theorem weightsOf_dist {fits : List Decomp} {w : List ℚ} (h : weightsOf fits = .ok w) (hne : fits ≠ []) :
    w.length = fits.length ∧ Spec.Distribution w := by
  obtain ⟨raw, rfl, hl, -, hp⟩ := weightsOf_ok h
  have hr : raw ≠ [] := by
    rintro rfl
    exact hne (List.length_eq_zero_iff.mp hl.symm)
  have hs := sum_pos' hr hp
  refine ⟨by simp [normalizeW, hl], fun x hx => ?_, normalizeW_sum (ne_of_gt hs)⟩
  unfold normalizeW at hx
  obtain ⟨y, hy, rfl⟩ := List.mem_map.mp hx
  exact div_pos (hp y hy) hs

theorem weighted_bounds {lo hi : ℚ} : ∀ {w : List ℚ} {row : List Cell}, row.length = w.length → (∀ x ∈ w, 0 < x) →
    (∀ c ∈ row, ∃ v, c = some v ∧ lo ≤ v ∧ v ≤ hi) →
    lo * w.sum ≤ weightedRow w row ∧ weightedRow w row ≤ hi * w.sum
  | [], row, hl, _, _ => by
    have : row = [] := List.length_eq_zero_iff.mp (by simpa using hl)
    subst this
    simp [weightedRow]
  | a :: w, [], hl, _, _ => by simp at hl
  | a :: w, c :: row, hl, hw, hr => by
    obtain ⟨h1, h2⟩ := weighted_bounds (lo := lo) (hi := hi) (w := w) (row := row) (by simpa using hl)
      (fun x hx => hw x (List.mem_cons_of_mem _ hx)) (fun x hx => hr x (List.mem_cons_of_mem _ hx))
    obtain ⟨v, rfl, h3, h4⟩ := hr c (List.mem_cons_self ..)
    have ha := hw a (List.mem_cons_self ..)
    have e : weightedRow (a :: w) (some v :: row) = v * a + weightedRow w row := by simp [weightedRow]
    rw [e, List.sum_cons]
    constructor <;> nlinarith

/-- what a call with bootstrapping (`out.small = false`) has done -/
theorem full_of_ok {e : BootEnv} {alts : Alternatives} {reps : Nat} {conf : ℚ} {day0 : Int} {pi : List Cell}
    {out : BootOut} (h : runBootstrap e alts reps conf day0 pi = .ok out) (hs : out.small = false) :
    ∃ cs df s2, combos alts = .ok cs ∧ FullRun e reps conf pi out cs df s2 := by
  obtain ⟨cs, hcs, ⟨w, m, best, hw, hm, hb, hr, -⟩ | ⟨df, s2, hf, -⟩⟩ := runBootstrap_ok h
  · unfold smallResult at hr
    obtain ⟨y, -, hr⟩ := bind_ok'.mp hr
    cases hc : cellMean (best.ratio.map fun c => c.map fun v => 1 - v) with
    | none => rw [hc] at hr; cases hr
    | some v =>
      rw [hc] at hr
      cases hr
      cases hs
  · exact ⟨cs, df, s2, hcs, hf⟩

/-- the outcome of stage 3 -/
theorem stage3_ok {e : BootEnv} {conf : ℚ} {pi : List Cell} {df : Decomp} {s2 : Stage2} {out : BootOut}
    (h : stage3 e pi conf df s2 = .ok out) : weightsOf s2.kdfs = .ok out.weights ∧
      (0 ≤ lowEdge conf ∧ lowEdge conf ≤ 1 ∧ 0 ≤ highEdge conf ∧ highEdge conf ≤ 1) ∧
      (∀ d ∈ s2.kdfs, d.soilingLoss.isSome) ∧
      out.table.ratio = clip01 df.ratio ∧
      out.table.srLow = rowQuantile pi.length (s2.kdfs.map fun d => d.ratio) (lowEdge conf) ∧
      out.table.srHigh = rowQuantile pi.length (s2.kdfs.map fun d => d.ratio) (highEdge conf) ∧
      out.table.btRatio = (List.range pi.length).map (fun i => weightedRow out.weights (rowAt (s2.kdfs.map fun d => d.ratio) i)) ∧
      out.table.cleaningProb = (List.range pi.length).map (fun i => weightedRow out.weights (s2.kdfs.map fun d => bCell (getB d.events i))) ∧
      out.degradation = (dotQ (s2.kdfs.map fun d => d.degradation) out.weights, quantile (s2.kdfs.map fun d => d.degradation) (lowEdge conf),
        quantile (s2.kdfs.map fun d => d.degradation) (highEdge conf)) ∧
      out.soilingLoss = (dotQ (valids (s2.kdfs.map fun d => d.soilingLoss)) out.weights, lossQuantile s2.kdfs (lowEdge conf),
          lossQuantile s2.kdfs (highEdge conf)) ∧ out.small = false := by
  have hk := stage3_kdfs h
  unfold stage3 at h
  rw [if_neg hk] at h
  by_cases hcf : lowEdge conf < 0 ∨ 1 < lowEdge conf ∨ highEdge conf < 0 ∨ 1 < highEdge conf
  · rw [if_pos hcf] at h; cases h
  rw [if_neg hcf] at h
  obtain ⟨w, hw, h⟩ := bind_ok'.mp h
  simp only at h
  by_cases hall : (s2.kdfs.map fun d => d.soilingLoss).all Option.isSome = true
  swap
  · rw [if_neg hall] at h; cases h
  rw [if_pos hall] at h
  obtain ⟨a, -, h⟩ := bind_ok'.mp h
  cases h
  push Not at hcf
  refine ⟨hw, ⟨hcf.1, hcf.2.1, hcf.2.2.1, hcf.2.2.2⟩, ?_, rfl, rfl, rfl, rfl, rfl, rfl, rfl, rfl⟩
  intro d hd
  rw [List.all_map, List.all_eq_true] at hall
  exact hall d hd

/-- the weights of a successful call are positive numbers that sum to one -/
theorem C42_distribution {e : BootEnv} {alts : Alternatives} {reps : Nat} {conf : ℚ} {day0 : Int} {pi : List Cell}
    {out : BootOut} (h : runBootstrap e alts reps conf day0 pi = .ok out) : Spec.Distribution out.weights := by
  obtain ⟨cs, -, ⟨w, m, best, hw, hm, hb, hs, -⟩ | ⟨df, s2, hf, -⟩⟩ := runBootstrap_ok h
  · have hne : successes e cs ≠ [] := by
      intro hn
      rw [hn] at hb
      cases hb
    unfold smallResult at hs
    obtain ⟨y, -, hs⟩ := bind_ok'.mp hs
    cases hc : cellMean (best.ratio.map fun c => c.map fun v => 1 - v) with
    | none => rw [hc] at hs; cases hs
    | some v =>
      rw [hc] at hs
      cases hs
      exact (weightsOf_dist hw hne).2
  · exact (weightsOf_dist (stage3_ok hf.final).1 (stage3_kdfs hf.final)).2

/-- there are accepted refits such that on every day the bootstrapped ratio is within their range and the cleaning probability is
between zero and one, zero without an event of any refit and one if all have an event -/
theorem C42_range_partial {e : BootEnv} {alts : Alternatives} {reps : Nat} {conf : ℚ} {day0 : Int} {pi : List Cell}
    {out : BootOut} (h : runBootstrap e alts reps conf day0 pi = .ok out) (hs : out.small = false) :
    ∃ refits : List Decomp, refits ≠ [] ∧ refits.length = out.weights.length ∧
      (∀ d ∈ refits, ∃ b < roundReps reps, ∃ x, e.refit b x = .ok d ∧ d.adf.2 < 5 / 100) ∧
      out.table.btRatio.length = pi.length ∧ out.table.cleaningProb.length = pi.length ∧
      ∀ i < pi.length,
        (∀ lo hi, (∀ d ∈ refits, ∃ v, cellAt d.ratio i = some v ∧ lo ≤ v ∧ v ≤ hi) →
          lo ≤ out.table.btRatio.getD i 0 ∧ out.table.btRatio.getD i 0 ≤ hi) ∧
        0 ≤ out.table.cleaningProb.getD i 0 ∧ out.table.cleaningProb.getD i 0 ≤ 1 ∧
        ((∀ d ∈ refits, getB d.events i = false) → out.table.cleaningProb.getD i 0 = 0) ∧
        ((∀ d ∈ refits, getB d.events i = true) → out.table.cleaningProb.getD i 0 = 1) := by
  obtain ⟨cs, df, s2, -, hf⟩ := full_of_ok h hs
  have hk := stage3_kdfs hf.final
  obtain ⟨hw, -, -, -, -, -, hbt, hcl, -⟩ := stage3_ok hf.final
  obtain ⟨hl, hp, hsum⟩ := weightsOf_dist hw hk
  refine ⟨s2.kdfs, hk, hl.symm, hf.kdfs, by rw [hbt]; simp, by rw [hcl]; simp, fun i hi => ?_⟩
  have e1 : out.table.btRatio.getD i 0 = weightedRow out.weights (rowAt (s2.kdfs.map fun d => d.ratio) i) := by
    rw [hbt, List.getD_eq_getElem?_getD, List.getElem?_map, List.getElem?_range hi]
    rfl
  have e2 : out.table.cleaningProb.getD i 0 = weightedRow out.weights (s2.kdfs.map fun d => bCell (getB d.events i)) := by
    rw [hcl, List.getD_eq_getElem?_getD, List.getElem?_map, List.getElem?_range hi]
    rfl
  have key : ∀ lo hi : ℚ, (∀ d ∈ s2.kdfs, lo ≤ (if getB d.events i = true then 1 else 0 : ℚ) ∧ (if getB d.events i = true then 1 else 0 : ℚ) ≤ hi) →
      lo ≤ out.table.cleaningProb.getD i 0 ∧ out.table.cleaningProb.getD i 0 ≤ hi := by
    intro lo hi hb
    rw [e2]
    have := weighted_bounds (lo := lo) (hi := hi) (w := out.weights) (row := s2.kdfs.map fun d => bCell (getB d.events i))
      (by simp [hl]) hp (by
        intro c hc
        obtain ⟨d, hd, rfl⟩ := List.mem_map.mp hc
        exact ⟨_, rfl, hb d hd⟩)
    rw [hsum] at this
    simpa using this
  refine ⟨fun lo hi hb => ?_, (key 0 1 ?_).1, (key 0 1 ?_).2, fun hz => ?_, fun ho => ?_⟩
  · rw [e1]
    have := weighted_bounds (lo := lo) (hi := hi) (w := out.weights) (row := rowAt (s2.kdfs.map fun d => d.ratio) i)
      (by simp [rowAt, hl]) hp (by
        intro c hc
        unfold rowAt at hc
        rw [List.map_map] at hc
        obtain ⟨d, hd, rfl⟩ := List.mem_map.mp hc
        obtain ⟨v, hv, h1, h2⟩ := hb d hd
        exact ⟨v, hv, h1, h2⟩)
    rw [hsum] at this
    simpa using this
  · intro d _; split_ifs <;> norm_num
  · intro d _; split_ifs <;> norm_num
  · have := key 0 0 (fun d hd => by rw [hz d hd]; norm_num)
    exact le_antisymm this.2 this.1
  · have := key 1 1 (fun d hd => by rw [ho d hd]; norm_num)
    exact le_antisymm this.2 this.1

/-! ## Which fit is returned -/

/-- the soiling ratio returned after bootstrapping is that of the LAST initial fit that succeeded, clipped to 0..1, whatever the
weights are. All sixteen fits succeeded and passed the test in this case. -/
theorem C40_last {e : BootEnv} {alts : Alternatives} {reps : Nat} {conf : ℚ} {day0 : Int} {pi : List Cell}
    {out : BootOut} (h : runBootstrap e alts reps conf day0 pi = .ok out) (hs : out.small = false) :
    ∃ cs c d, combos alts = .ok cs ∧ cs[15]? = some c ∧ e.fit0 c = .ok d ∧
      out.table.ratio = d.ratio.map fun x => x.map fun v => min 1 (max 0 v) := by
  suffices H : ∃ cs c d, combos alts = .ok cs ∧ cs[15]? = some c ∧ e.fit0 c = .ok d ∧ out.table.ratio = clip01 d.ratio by
    obtain ⟨cs, c, d, h1, h2, h3, h4⟩ := H
    exact ⟨cs, c, d, h1, h2, h3, h4⟩
  obtain ⟨cs, df, s2, hcs, hf⟩ := full_of_ok h hs
  obtain ⟨-, -, -, hr, -⟩ := stage3_ok hf.final
  have hlen := combos_length hcs
  obtain ⟨l, c, rfl⟩ : ∃ l c, cs = l ++ [c] := by
    have hne : cs ≠ [] := by rintro rfl; simp at hlen
    exact ⟨cs.dropLast, cs.getLast hne, (List.dropLast_append_getLast hne).symm⟩
  obtain ⟨d, hd, -, -⟩ := hf.all c (by simp)
  have hl : l.length = 15 := by simpa using hlen
  refine ⟨l ++ [c], c, d, hcs, by rw [List.getElem?_append_right (by omega)]; simp [hl], hd, ?_⟩
  have hlast := hf.last
  have e1 : successes e (l ++ [c]) = successes e l ++ [d] := by
    unfold successes
    rw [List.filterMap_append]
    simp [hd]
  rw [e1, List.getLast?_concat] at hlast
  cases hlast
  exact hr

/-- if the signal is small, the returned table is that of a fit with the largest weight -/
theorem C40_small_partial {e : BootEnv} {alts : Alternatives} {reps : Nat} {conf : ℚ} {day0 : Int} {pi : List Cell}
    {out : BootOut} (h : runBootstrap e alts reps conf day0 pi = .ok out) (hs : out.small = true) :
    ∃ cs, combos alts = .ok cs ∧ ∃ m d, (successes e cs)[m]? = some d ∧ (∀ x ∈ out.weights, x ≤ out.weights.getD m 0) ∧
      out.table.ratio = d.ratio ∧ out.table.seasonal = d.seasonal ∧ out.table.trend = d.trend ∧ out.table.total = d.total ∧
      out.table.rates = d.rates := by
  obtain ⟨cs, hcs, ⟨w, m, best, hw, hm, hb, hr, -⟩ | ⟨df, s2, hf, -⟩⟩ := runBootstrap_ok h
  · unfold smallResult at hr
    obtain ⟨y, -, hr⟩ := bind_ok'.mp hr
    cases hc : cellMean (best.ratio.map fun c => c.map fun v => 1 - v) with
    | none => rw [hc] at hr; cases hr
    | some v =>
      rw [hc] at hr
      cases hr
      refine ⟨cs, hcs, m, best, hb, ?_, rfl, rfl, rfl, rfl, rfl⟩
      unfold argmaxE at hm
      split_ifs at hm with hne
      cases hm
      intro x hx
      show x ≤ w.getD (argmaxQ w) 0
      have hlen : 0 < w.length := List.length_pos_iff.mpr hne
      have hcell : ∀ i < w.length, cellAt (w.map some) i = some (w.getD i 0) := by
        intro i hi
        unfold cellAt
        rw [List.getElem?_map, List.getElem?_eq_getElem hi, List.getD_eq_getElem?_getD, List.getElem?_eq_getElem hi]
        rfl
      unfold argmaxQ
      cases ha : argmaxCell (w.map some) 0 (w.length - 1) with
      | none =>
        have := argmaxCell_none (Nat.zero_le _) ha 0 le_rfl (Nat.zero_le _)
        rw [hcell 0 hlen] at this
        cases this
      | some j =>
        obtain ⟨i, hi, rfl⟩ := List.mem_iff_getElem.mp hx
        have hi : i < w.length := hi
        have hfm := argmaxCell_some (Nat.zero_le _) ha
        obtain ⟨h1, h2, v', h3, h4, -⟩ := hfm
        have := h4 i (w.getD i 0) (Nat.zero_le _) (by omega) (hcell i hi)
        rw [hcell j (by omega)] at h3
        cases h3
        simp only [Option.getD_some]
        rw [List.getD_eq_getElem?_getD, List.getElem?_eq_getElem hi] at this
        exact this
  · obtain ⟨-, -, -, -, -, -, -, -, -, -, hsm⟩ := stage3_ok hf.final
    rw [hsm] at hs
    cases hs

end Verif.Cods
