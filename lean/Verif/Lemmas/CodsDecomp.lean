import Verif.Model.CodsDecomp
import Verif.Lemmas.CodsKalman

/-! # Lemmas about the iterative decomposition -/

namespace Verif.Cods

open Verif

/-- what a fit does not change, and what it records -/
structure FitFrame (st s : DecompState) : Prop where
  ic : s.ic = st.ic
  order : s.order = st.order
  perfect : s.perfect = st.perfect
  changePoint : s.changePoint = st.changePoint
  metrics : s.metrics = st.metrics
  log : ∃ c, compAt st.order st.ic = some c ∧ s.log = st.log ++ [(c, st.perfect)]

theorem fitSR_frame {fuel : Nat} {o : DecompOpts} {pi : List Cell} {st s : DecompState} (h : fitSR fuel o pi st = .ok s) :
    s.ic = st.ic ∧ s.order = st.order ∧ s.perfect = st.perfect ∧ s.changePoint = st.changePoint ∧ s.metrics = st.metrics := by
  unfold fitSR at h
  obtain ⟨p, -, h⟩ := bind_ok'.mp h
  obtain ⟨k, -, h⟩ := bind_ok'.mp h
  cases h
  exact ⟨rfl, rfl, rfl, rfl, rfl⟩

theorem fitSC_frame {e : DecompEnv} {o : DecompOpts} {day0 : Int} {pi : List Cell} {st s : DecompState}
    (h : fitSC e o day0 pi st = .ok s) :
    s.ic = st.ic ∧ s.order = st.order ∧ s.perfect = st.perfect ∧ s.changePoint = st.changePoint ∧ s.metrics = st.metrics := by
  unfold fitSC at h
  obtain ⟨p, -, h⟩ := bind_ok'.mp h
  dsimp only at h
  by_cases ho : o.stl = true
  · rw [if_pos ho] at h
    obtain ⟨d, -, h⟩ := bind_ok'.mp h
    cases h
    exact ⟨rfl, rfl, rfl, rfl, rfl⟩
  · rw [if_neg ho] at h
    cases h
    exact ⟨rfl, rfl, rfl, rfl, rfl⟩

theorem fitRd_frame {e : DecompEnv} {pi : List Cell} {st s : DecompState} (h : fitRd e pi st = .ok s) :
    s.ic = st.ic ∧ s.order = st.order ∧ s.perfect = st.perfect ∧ s.changePoint = st.changePoint ∧ s.metrics = st.metrics := by
  unfold fitRd at h
  obtain ⟨d, -, h⟩ := bind_ok'.mp h
  cases h
  exact ⟨rfl, rfl, rfl, rfl, rfl⟩

theorem fitComp_frame {e : DecompEnv} {fuel : Nat} {o : DecompOpts} {day0 : Int} {pi : List Cell} {st s : DecompState}
    (h : fitComp e fuel o day0 pi st = .ok s) : FitFrame st s := by
  unfold fitComp at h
  cases hc : compAt st.order st.ic with
  | none => rw [hc] at h; cases h
  | some c =>
    rw [hc] at h
    cases c with
    | SR =>
      obtain ⟨a, ha, rfl⟩ := map_ok.mp h
      obtain ⟨h1, h2, h3, h4, h5⟩ := fitSR_frame ha
      exact ⟨h1, h2, h3, h4, h5, _, hc, rfl⟩
    | SC =>
      obtain ⟨a, ha, rfl⟩ := map_ok.mp h
      obtain ⟨h1, h2, h3, h4, h5⟩ := fitSC_frame ha
      exact ⟨h1, h2, h3, h4, h5, _, hc, rfl⟩
    | Rd =>
      obtain ⟨a, ha, rfl⟩ := map_ok.mp h
      obtain ⟨h1, h2, h3, h4, h5⟩ := fitRd_frame ha
      exact ⟨h1, h2, h3, h4, h5, _, hc, rfl⟩

/-! ### The reordering -/

theorem reorder_length (l : List Comp) (ic : Nat) : (reorder l ic).length = l.length := by
  unfold reorder
  rw [List.filterMap_eq_map_iff_forall_eq_some (f := _) (g := fun i =>
      (l[(i + l.length - 1 - (ic - 1) % l.length) % l.length]?).getD .SR) |>.mpr]
  · simp
  · intro i hi
    have : i < l.length := List.mem_range.mp hi
    have hn : 0 < l.length := by omega
    rw [List.getElem?_eq_getElem (Nat.mod_lt _ hn)]
    rfl

theorem reorder_get {l : List Comp} {ic i : Nat} (hi : i < l.length) :
    (reorder l ic)[i]? = l[(i + l.length - 1 - (ic - 1) % l.length) % l.length]? := by
  have hn : 0 < l.length := by omega
  unfold reorder
  rw [List.filterMap_eq_map_iff_forall_eq_some (f := _) (g := fun i =>
      (l[(i + l.length - 1 - (ic - 1) % l.length) % l.length]?).getD .SR) |>.mpr]
  · rw [List.getElem?_map, List.getElem?_range hi]
    simp only [Option.map_some]
    rw [List.getElem?_eq_getElem (Nat.mod_lt _ hn)]
    rfl
  · intro j hj
    rw [List.getElem?_eq_getElem (Nat.mod_lt _ hn)]
    rfl

/-- after the change at iteration `k1` the components come in the given order, beginning with the first -/
theorem reorder_compAt {l : List Comp} (hn : 0 < l.length) {k1 j : Nat} (hk : 0 < k1) :
    compAt (reorder l k1) (k1 + j + 1) = l[j % l.length]? := by
  unfold compAt
  rw [reorder_length, reorder_get (Nat.mod_lt _ hn)]
  congr 1
  generalize hL : l.length = n at *
  obtain ⟨m, rfl⟩ : ∃ m, k1 = m + 1 := ⟨k1 - 1, by omega⟩
  have e1 : m + 1 + j + 1 - 1 = m + 1 + j := by omega
  have e2 : m + 1 - 1 = m := by omega
  rw [e1, e2]
  have hm : m % n < n := Nat.mod_lt _ hn
  have e3 : (m + 1 + j) % n + n - 1 - m % n = (m + 1 + j) % n + (n - 1 - m % n) := by omega
  rw [e3, Nat.mod_add_mod]
  have e4 : m + 1 + j + (n - 1 - m % n) = j + n * (m / n + 1) := by
    have := Nat.div_add_mod m n
    have e5 : n * (m / n + 1) = n * (m / n) + n := by ring
    omega
  rw [e4, Nat.add_mul_mod_self_left]

/-! ### The loop -/

/-- `l` follows the order cyclically from its beginning -/
def Spec.Cyclic (order l : List Comp) : Prop := ∀ i, i < l.length → l[i]? = order[i % order.length]?

theorem Spec.Cyclic.snoc {order l : List Comp} {c : Comp} (h : Spec.Cyclic order l)
    (hc : order[l.length % order.length]? = some c) : Spec.Cyclic order (l ++ [c]) := by
  intro i hi
  rcases Nat.lt_or_ge i l.length with h1 | h1
  · rw [List.getElem?_append_left h1]; exact h i h1
  · have : i = l.length := by simp at hi; omega
    subst this
    simp [hc]

/-- invariant between two iterations -/
inductive LoopInv (order : List Comp) (mx : Nat) (st : DecompState) : Prop
  | first (l : List Comp) (hp : st.perfect = true) (ho : st.order = order) (hl : st.log = l.map fun c => (c, true))
      (hc : Spec.Cyclic order l) (hi : st.ic = l.length) (hd : st.ic < order.length ∨ 2 * st.ic < mx)
      (hm : st.metrics.length = st.ic + 1)
  | second (l1 l2 : List Comp) (hp : st.perfect = false) (ho : st.order = reorder order l1.length)
      (hl : st.log = l1.map (fun c => (c, true)) ++ l2.map fun c => (c, false)) (hc1 : Spec.Cyclic order l1)
      (hc2 : Spec.Cyclic order l2) (hi : st.ic = l1.length + l2.length) (hk : st.changePoint = l1.length)
      (hn : order.length ≤ l1.length) (hle : l1.length ≤ max order.length ((mx + 1) / 2))
      (hm : st.metrics.length = st.ic + 1)

/-- after stopping -/
def Stopped (order : List Comp) (mx : Nat) (st : DecompState) : Prop :=
  LoopInv order mx st ∧ st.perfect = false ∧ (mx ≤ st.ic ∨ st.changePoint + order.length ≤ st.ic)

theorem step_inv {e : DecompEnv} {fuel : Nat} {o : DecompOpts} {day0 : Int} {pi : List Cell} {st s : DecompState}
    {order : List Comp} (hn : 0 < order.length) (hI : LoopInv order o.maxIterations st)
    (h : fitComp e fuel o day0 pi { st with ic := st.ic + 1 } = .ok s) :
    LoopInv order o.maxIterations (decideNext o (combine e pi s)).1 ∧
      (decideNext o (combine e pi s)).1.ic = st.ic + 1 ∧
      ((decideNext o (combine e pi s)).2 = true → Stopped order o.maxIterations (decideNext o (combine e pi s)).1) := by
  obtain ⟨f1, f2, f3, f4, f5, c, f6, f7⟩ := fitComp_frame h
  have g1 : (combine e pi s).ic = st.ic + 1 := f1
  have g2 : (combine e pi s).order = st.order := f2
  have g3 : (combine e pi s).perfect = st.perfect := f3
  have g4 : (combine e pi s).changePoint = st.changePoint := f4
  have g5 : (combine e pi s).metrics.length = st.metrics.length + 1 := by simp [combine, f5]
  have g7 : (combine e pi s).log = st.log ++ [(c, st.perfect)] := f7
  generalize combine e pi s = t at *
  dsimp only at f6
  cases hI with
  | first l hp ho hl hc hi hd hm =>
    have hc' : Spec.Cyclic order (l ++ [c]) := by
      apply hc.snoc
      unfold compAt at f6
      rw [ho, Nat.add_sub_cancel, hi] at f6
      exact f6
    have hlog : t.log = (l ++ [c]).map fun c => (c, true) := by rw [g7, hl, hp]; simp
    unfold decideNext
    rw [g2, ho, g1, g3, hp]
    by_cases hlt : order.length ≤ st.ic + 1
    · rw [if_pos hlt]
      by_cases hcv : (decide (o.maxIterations ≤ 2 * (st.ic + 1)) || converged o.criterion t) = true
      · rw [if_pos (by simpa using hcv)]
        refine ⟨.second (l ++ [c]) [] rfl ?_ ?_ hc' (fun i hi => by simp at hi) ?_ ?_ ?_ ?_ ?_, rfl, fun h => by simp at h⟩
        · simp [hi]
        · simp [hlog]
        · simp [hi]
        · simp [hi]
        · simp; omega
        · simp; omega
        · simp only []; omega
      · rw [if_neg (by simpa using hcv), if_neg (by simp)]
        refine ⟨.first (l ++ [c]) (by rw [g3, hp]) (by rw [g2, ho]) hlog hc' (by simp [g1, hi]) ?_
          (by show t.metrics.length = t.ic + 1; omega), g1, fun h => by simp at h⟩
        right
        have : ¬ o.maxIterations ≤ 2 * (st.ic + 1) := fun h => hcv (by simp [h])
        show 2 * t.ic < _
        omega
    · rw [if_neg hlt]
      exact ⟨.first (l ++ [c]) (by rw [g3, hp]) (by rw [g2, ho]) hlog hc' (by simp [g1, hi]) (by left; show t.ic < _; omega)
        (by show t.metrics.length = t.ic + 1; omega),
        g1, fun h => by simp at h⟩
  | second l1 l2 hp ho hl hc1 hc2 hi hk hn1 hle hm =>
    have hc' : Spec.Cyclic order (l2 ++ [c]) := by
      apply hc2.snoc
      rw [ho, hi, reorder_compAt hn (by omega)] at f6
      exact f6
    have hlog : t.log = l1.map (fun c => (c, true)) ++ (l2 ++ [c]).map fun c => (c, false) := by
      rw [g7, hl, hp]; simp
    have hinv : LoopInv order o.maxIterations t :=
      .second l1 (l2 ++ [c]) (by rw [g3, hp]) (by rw [g2, ho]) hlog hc1 hc' (by simp; omega) (by omega) hn1 hle (by omega)
    unfold decideNext
    rw [g2, ho, reorder_length, g1, g3, hp, g4, hk]
    rw [if_pos (by omega), if_neg (by simp)]
    by_cases hcv : (decide (o.maxIterations ≤ st.ic + 1) ||
        (decide (l1.length + order.length ≤ st.ic + 1) && converged o.criterion t)) = true
    · rw [if_pos (by simpa using hcv)]
      refine ⟨hinv, g1, fun _ => ⟨hinv, by rw [g3, hp], ?_⟩⟩
      simp only [Bool.or_eq_true, Bool.and_eq_true, decide_eq_true_eq] at hcv
      simp only []
      omega
    · rw [if_neg (by simpa using hcv)]
      exact ⟨hinv, g1, fun h => by simp at h⟩

theorem loop_inv {e : DecompEnv} {fuel : Nat} {o : DecompOpts} {day0 : Int} {pi : List Cell} {order : List Comp}
    (hn : 0 < order.length) : ∀ (rem : Nat) {st s : DecompState}, LoopInv order o.maxIterations st →
      st.ic + rem = o.maxIterations → decompLoop e fuel o day0 pi rem st = .ok s →
      LoopInv order o.maxIterations s ∧ s.ic ≤ o.maxIterations ∧ (s.ic = o.maxIterations ∨ Stopped order o.maxIterations s)
  | 0, st, s, hI, hr, h => by
    unfold decompLoop at h
    cases h
    exact ⟨hI, by omega, .inl (by omega)⟩
  | rem + 1, st, s, hI, hr, h => by
    unfold decompLoop at h
    obtain ⟨t, ht, h⟩ := bind_ok'.mp h
    obtain ⟨h1, h2, h3⟩ := step_inv hn hI ht
    by_cases hs : (decideNext o (combine e pi t)).2 = true
    · rw [if_pos hs] at h
      cases h
      exact ⟨h1, by omega, .inr (h3 hs)⟩
    · rw [if_neg hs] at h
      exact loop_inv hn rem h1 (by omega) h

theorem initState_inv {e : DecompEnv} {o : DecompOpts} {pi : List Cell} {pce : List Bool}
    (hn : 0 < (effectiveOrder o).length) : LoopInv (effectiveOrder o) o.maxIterations (initState e o pi pce) :=
  .first [] rfl rfl rfl (fun i hi => by simp at hi) rfl (.inl hn) rfl

/-- the parts of a successful call -/
theorem decompose_ok {e : DecompEnv} {fuel : Nat} {o : DecompOpts} {day0 : Int} {pi : List Cell} {out : Decomp}
    (h : decompose e fuel o day0 pi = .ok out) :
    .SR ∈ effectiveOrder o ∧ ∃ pce st k, decompLoop e fuel o day0 pi o.maxIterations (initState e o pi pce) = .ok st ∧
      st.df = some k ∧ finishDecomp e o pi st = .ok out ∧ out.log = st.log := by
  unfold decompose at h
  by_cases hs : Comp.SR ∈ effectiveOrder o
  · rw [if_neg (by simpa using hs)] at h
    obtain ⟨pce, -, h⟩ := bind_ok'.mp h
    obtain ⟨st, h1, h⟩ := bind_ok'.mp h
    cases hk : st.df with
    | none => unfold finishDecomp at h; rw [hk] at h; cases h
    | some k =>
      refine ⟨hs, pce, st, k, h1, hk, h, ?_⟩
      unfold finishDecomp at h
      rw [hk] at h
      obtain ⟨a, -, h⟩ := bind_ok'.mp h
      obtain ⟨b, -, h⟩ := bind_ok'.mp h
      cases h
      rfl
  · rw [if_pos hs] at h
    cases h

end Verif.Cods

namespace Verif.Cods

open Verif

/-! ### The data in the loop -/

theorem loop_preserve {e : DecompEnv} {fuel : Nat} {o : DecompOpts} {day0 : Int} {pi : List Cell} {P : DecompState → Prop}
    (hstep : ∀ st s, P st → fitComp e fuel o day0 pi { st with ic := st.ic + 1 } = .ok s →
      P (decideNext o (combine e pi s)).1) :
    ∀ (rem : Nat) {st s : DecompState}, P st → decompLoop e fuel o day0 pi rem st = .ok s → P s
  | 0, st, s, hP, h => by
    unfold decompLoop at h
    cases h
    exact hP
  | rem + 1, st, s, hP, h => by
    unfold decompLoop at h
    obtain ⟨t, ht, h⟩ := bind_ok'.mp h
    have h1 := hstep st t hP ht
    by_cases hs : (decideNext o (combine e pi t)).2 = true
    · rw [if_pos hs] at h
      cases h
      exact h1
    · rw [if_neg hs] at h
      exact loop_preserve hstep rem h1 h

/-- the decision changes only the assumption, the order and the change point -/
theorem decideNext_frame (o : DecompOpts) (t : DecompState) :
    (decideNext o t).1.trend = t.trend ∧ (decideNext o t).1.seasonal = t.seasonal ∧ (decideNext o t).1.ratio = t.ratio ∧
      (decideNext o t).1.df = t.df ∧ (decideNext o t).1.deg = t.deg ∧ (decideNext o t).1.shift = t.shift ∧
      (decideNext o t).1.residuals = t.residuals ∧ (decideNext o t).1.log = t.log ∧ (decideNext o t).1.ic = t.ic ∧
      ((decideNext o t).1.perfect = false → t.perfect = false ∨ 0 < t.order.length → t.perfect = false ∨ 0 < t.ic) := by
  unfold decideNext
  split_ifs with h1 h2 h3
  · refine ⟨rfl, rfl, rfl, rfl, rfl, rfl, rfl, rfl, rfl, fun _ h => ?_⟩
    rcases h with h | h
    · exact .inl h
    · exact .inr (by omega)
  all_goals exact ⟨rfl, rfl, rfl, rfl, rfl, rfl, rfl, rfl, rfl, fun h _ => .inl h⟩

/-- where the components come from -/
structure DataInv (fuel : Nat) (o : DecompOpts) (day0 : Int) (pi : List Cell) (st : DecompState) : Prop where
  seasonal : st.seasonal = (pi.map fun _ => some 1) ∨
    ∃ sig, st.seasonal = (forcePeriodicity sig (daysFrom day0 pi.length)).map Prod.snd
  trend : o.stl = false → st.trend = linearTrend pi.length st.deg
  stlTrend : o.stl = true → Comp.Rd ∉ st.order → st.trend = (pi.map fun _ => some 1) ∨ ∃ t, st.trend = firstNormalized t
  df : ∀ k, st.df = some k → k.ratio = st.ratio ∧ ∃ prn perf zs pre, kalmanSR (kalmanOpts o prn perf) fuel zs (.series pre) = .ok k

theorem reorder_mem {l : List Comp} {ic : Nat} {c : Comp} (h : c ∈ reorder l ic) : c ∈ l := by
  unfold reorder at h
  obtain ⟨i, -, h⟩ := List.mem_filterMap.mp h
  exact List.mem_of_getElem? h

theorem decideNext_order (o : DecompOpts) (t : DecompState) {c : Comp} (h : c ∈ (decideNext o t).1.order) : c ∈ t.order := by
  unfold decideNext at h
  split_ifs at h with h1 h2 h3
  · exact reorder_mem h
  all_goals exact h

theorem dataInv_step {e : DecompEnv} {fuel : Nat} {o : DecompOpts} {day0 : Int} {pi : List Cell} (st s : DecompState)
    (hI : DataInv fuel o day0 pi st ∧ (o.stl = true → Comp.Rd ∉ st.order))
    (h : fitComp e fuel o day0 pi { st with ic := st.ic + 1 } = .ok s) :
    DataInv fuel o day0 pi (decideNext o (combine e pi s)).1 ∧
      (o.stl = true → Comp.Rd ∉ (decideNext o (combine e pi s)).1.order) := by
  obtain ⟨d1, d2, d3, d4, d5, -⟩ := decideNext_frame o (combine e pi s)
  obtain ⟨hI, hR⟩ := hI
  have hR' : o.stl = true → Comp.Rd ∉ (decideNext o (combine e pi s)).1.order := by
    intro ho hm
    have := decideNext_order o _ hm
    have e1 : (combine e pi s).order = st.order := (fitComp_frame h).order
    rw [e1] at this
    exact hR ho this
  have hD : DataInv fuel o day0 pi s := by
    have hfr := fitComp_frame h
    unfold fitComp at h
    cases hc : compAt { st with ic := st.ic + 1 }.order { st with ic := st.ic + 1 }.ic with
    | none => rw [hc] at h; cases h
    | some c =>
      rw [hc] at h
      cases c with
      | SR =>
        obtain ⟨a, ha, rfl⟩ := map_ok.mp h
        unfold fitSR at ha
        obtain ⟨p, -, ha⟩ := bind_ok'.mp ha
        obtain ⟨k, hk, ha⟩ := bind_ok'.mp ha
        cases ha
        refine ⟨hI.seasonal, hI.trend, fun ho _ => hI.stlTrend ho (hR ho), ?_⟩
        intro k' hk'
        cases hk'
        exact ⟨rfl, _, _, _, _, hk⟩
      | SC =>
        obtain ⟨a, ha, rfl⟩ := map_ok.mp h
        unfold fitSC at ha
        obtain ⟨p, -, ha⟩ := bind_ok'.mp ha
        dsimp only at ha
        by_cases ho : o.stl = true
        · rw [if_pos ho] at ha
          obtain ⟨d, -, ha⟩ := bind_ok'.mp ha
          cases ha
          exact ⟨.inr ⟨_, rfl⟩, fun h => (by rw [ho] at h; cases h), fun _ _ => .inr ⟨_, rfl⟩, hI.df⟩
        · rw [if_neg ho] at ha
          cases ha
          exact ⟨.inr ⟨_, rfl⟩, hI.trend, fun h => absurd h ho, hI.df⟩
      | Rd =>
        obtain ⟨a, ha, rfl⟩ := map_ok.mp h
        unfold fitRd at ha
        obtain ⟨d, -, ha⟩ := bind_ok'.mp ha
        cases ha
        refine ⟨hI.seasonal, fun _ => rfl, ?_, hI.df⟩
        intro ho
        have : Comp.Rd ∈ st.order := by
          unfold compAt at hc
          exact List.mem_of_getElem? hc
        exact absurd this (hR ho)
  refine ⟨⟨?_, ?_, ?_, ?_⟩, hR'⟩
  · rw [d2]; exact hD.seasonal
  · rw [d1, d5]; exact hD.trend
  · intro ho _
    rw [d1]
    refine hD.stlTrend ho ?_
    rw [(fitComp_frame h).order]
    exact hR ho
  · rw [d4, d3]; exact hD.df

theorem linearTrend_zero (pi : List Cell) : (pi.map fun _ => (some 1 : Cell)) = linearTrend pi.length 0 := by
  unfold linearTrend
  apply List.ext_getElem?
  intro i
  rcases Nat.lt_or_ge i pi.length with h | h
  · rw [List.getElem?_map, List.getElem?_map, List.getElem?_range h, List.getElem?_eq_getElem h]
    simp
  · rw [List.getElem?_eq_none (by simpa), List.getElem?_eq_none (by simpa)]

theorem initState_data {e : DecompEnv} {fuel : Nat} {o : DecompOpts} {day0 : Int} {pi : List Cell} {pce : List Bool} :
    DataInv fuel o day0 pi (initState e o pi pce) ∧ (o.stl = true → Comp.Rd ∉ (initState e o pi pce).order) := by
  refine ⟨⟨.inl rfl, fun _ => linearTrend_zero pi, fun _ _ => .inl rfl, fun k hk => by cases hk⟩, ?_⟩
  intro ho
  show Comp.Rd ∉ effectiveOrder o
  unfold effectiveOrder
  rw [if_pos ho]
  intro h
  simpa using (List.mem_filter.mp h).2

/-- the soiling component has been fitted in one of the first two iterations, or not at all -/
def EarlySR (st : DecompState) : Prop :=
  st.ic = st.log.length ∧ (st.df.isSome = true → ∃ i b, i < 2 ∧ st.log[i]? = some (.SR, b))

theorem early_step {e : DecompEnv} {fuel : Nat} {o : DecompOpts} {day0 : Int} {pi : List Cell} (st s : DecompState)
    (hI : EarlySR st) (h : fitComp e fuel o day0 pi { st with ic := st.ic + 1 } = .ok s) :
    EarlySR (decideNext o (combine e pi s)).1 := by
  obtain ⟨-, -, -, d4, -, -, -, d8, d9, -⟩ := decideNext_frame o (combine e pi s)
  obtain ⟨h1, h2⟩ := hI
  obtain ⟨f1, -, -, -, -, c, f6, f7⟩ := fitComp_frame h
  unfold EarlySR
  rw [d4, d8, d9]
  show s.ic = s.log.length ∧ (s.df.isSome = true → ∃ i b, i < 2 ∧ s.log[i]? = some (.SR, b))
  refine ⟨by rw [f1, f7]; simp [h1], fun hs => ?_⟩
  by_cases hd : st.df.isSome = true
  · obtain ⟨i, b, hi, hl⟩ := h2 hd
    refine ⟨i, b, hi, ?_⟩
    rw [f7, List.getElem?_append_left]
    · exact hl
    · exact (List.getElem?_eq_some_iff.mp hl).1
  · have hn : st.df = none := by simpa using hd
    unfold fitComp at h
    rw [f6] at h
    cases c with
    | SR =>
      obtain ⟨a, ha, rfl⟩ := map_ok.mp h
      unfold fitSR at ha
      obtain ⟨p, hp, ha⟩ := bind_ok'.mp ha
      unfold prepareEvents at hp
      by_cases hic : 2 < st.ic + 1
      · rw [if_pos hic] at hp
        simp only [hn] at hp
        cases hp
      · refine ⟨st.log.length, st.perfect, by omega, ?_⟩
        rw [f7]
        simp
    | SC =>
      obtain ⟨a, ha, rfl⟩ := map_ok.mp h
      unfold fitSC at ha
      obtain ⟨p, -, ha⟩ := bind_ok'.mp ha
      dsimp only at ha
      by_cases ho : o.stl = true
      · rw [if_pos ho] at ha
        obtain ⟨d, -, ha⟩ := bind_ok'.mp ha
        cases ha
        exact absurd hs hd
      · rw [if_neg ho] at ha
        cases ha
        exact absurd hs hd
    | Rd =>
      obtain ⟨a, ha, rfl⟩ := map_ok.mp h
      unfold fitRd at ha
      obtain ⟨d, -, ha⟩ := bind_ok'.mp ha
      cases ha
      exact absurd hs hd

end Verif.Cods
