import Verif.Props.CodsDecomp
import Verif.Props.CodsRun
import Verif.Lemmas.CodsNoIndex

/-! # Properties C69 (orders) and C72 (a flat index) -/

namespace Verif.Cods

open Verif

/-! ## Orders -/

/-- with the soiling component first or second and within the budget, no `IndexError` is raised (unless by another package) -/
theorem C69_no_index_error {e : DecompEnv} (he : Spec.envNoIdx e) (fuel : Nat) {o : DecompOpts} (day0 : Int) (pi : List Cell)
    {p : Nat} (hp : p < 2) (ho : (Spec.fitOrder o)[p]? = some .SR) (hm : p < o.maxIterations) :
    decompose e fuel o day0 pi ≠ .error .indexError := decompose_noIdx he hp ho hm

/-- an order without the soiling component is rejected with `ValueError` -/
theorem C69_missing (e : DecompEnv) (fuel : Nat) {o : DecompOpts} (day0 : Int) (pi : List Cell) (ho : Comp.SR ∉ o.order) :
    decompose e fuel o day0 pi = .error .valueError := by
  unfold decompose
  rw [if_pos]
  unfold effectiveOrder
  split_ifs
  · intro h; exact ho (List.mem_filter.mp h).1
  · exact ho

/-! ## A flat index -/

/-- all values equal `c` -/
def Spec.Flat (c : ℚ) (l : List Cell) : Prop := ∀ v, some v ∈ l → v = c

theorem flat_map {α : Type} {g : α → Cell} {l : List α} {c : ℚ} (h : ∀ x ∈ l, ∀ v, g x = some v → v = c) :
    Spec.Flat c (l.map g) := by
  intro v hv
  obtain ⟨x, hx, e⟩ := List.mem_map.mp hv
  exact h x hx v e

theorem exists_cellAt {l : List Cell} {v : ℚ} (h : some v ∈ l) : ∃ i, Verif.cellAt l i = some v := by
  obtain ⟨i, hi⟩ := List.mem_iff_getElem?.mp h
  exact ⟨i, by unfold Verif.cellAt; rw [hi]; rfl⟩

theorem Spec.Flat.cellAt {l : List Cell} {c : ℚ} (h : Spec.Flat c l) {i : Nat} {v : ℚ} (hv : Verif.cellAt l i = some v) : v = c :=
  h v (cellAt_mem hv)

theorem Spec.Flat.div {a b : List Cell} {x y : ℚ} (ha : Spec.Flat x a) (hb : Spec.Flat y b) : Spec.Flat (x / y) (cellsDiv a b) := by
  intro v hv
  obtain ⟨i, hi⟩ := exists_cellAt hv
  rw [cellAt_div] at hi
  cases h1 : Verif.cellAt a i with
  | none => rw [h1] at hi; cases h2 : Verif.cellAt b i <;> rw [h2] at hi <;> cases hi
  | some u =>
    cases h2 : Verif.cellAt b i with
    | none => rw [h1, h2] at hi; cases hi
    | some w =>
      rw [h1, h2, ha.cellAt h1, hb.cellAt h2] at hi
      simp only [cellDiv] at hi
      split_ifs at hi
      cases hi
      rfl

theorem Spec.Flat.mul {a b : List Cell} {x y : ℚ} (ha : Spec.Flat x a) (hb : Spec.Flat y b) : Spec.Flat (x * y) (cellsMul a b) := by
  intro v hv
  obtain ⟨i, hi⟩ := exists_cellAt hv
  rw [cellAt_mul] at hi
  cases h1 : Verif.cellAt a i with
  | none => rw [h1] at hi; cases h2 : Verif.cellAt b i <;> rw [h2] at hi <;> cases hi
  | some u =>
    cases h2 : Verif.cellAt b i with
    | none => rw [h1, h2] at hi; cases hi
    | some w =>
      rw [h1, h2, ha.cellAt h1, hb.cellAt h2] at hi
      cases hi
      rfl

theorem mean_flat {l : List ℚ} {c m : ℚ} (h : ∀ x ∈ l, x = c) (hm : mean l = some m) : m = c := by
  obtain ⟨hne, rfl⟩ := mean_some hm
  have hs : l.sum = l.length * c := by
    clear hm hne
    induction l with
    | nil => simp
    | cons a l ih =>
      rw [List.sum_cons, h a (List.mem_cons_self ..), ih fun x hx => h x (List.mem_cons_of_mem _ hx)]
      simp
      ring
  have : (l.length : ℚ) ≠ 0 := by
    have : l.length ≠ 0 := by simpa using hne
    exact_mod_cast this
  rw [hs]
  field_simp

theorem Spec.Flat.mean {l : List Cell} {c m : ℚ} (h : Spec.Flat c l) (hm : cellMean l = some m) : m = c :=
  mean_flat (fun x hx => h x (mem_valids.mp hx)) hm

theorem cellAt_ffill_flat {l : List Cell} {c : ℚ} (h : Spec.Flat c l) : Spec.Flat c (ffill l) := by
  have : ∀ (l : List Cell) (p : Cell), Spec.Flat c l → (∀ v, p = some v → v = c) → Spec.Flat c (ffillFrom p l) := by
    intro l
    induction l with
    | nil => intro p _ _ v hv; cases hv
    | cons x l ih =>
      intro p hl hp v hv
      cases x with
      | none =>
        unfold ffillFrom at hv
        rcases List.mem_cons.mp hv with h1 | h1
        · exact hp v h1.symm
        · exact ih p (fun w hw => hl w (List.mem_cons_of_mem _ hw)) hp v h1
      | some y =>
        unfold ffillFrom at hv
        have hy := hl y (List.mem_cons_self ..)
        rcases List.mem_cons.mp hv with h1 | h1
        · cases h1; exact hy
        · exact ih (some y) (fun w hw => hl w (List.mem_cons_of_mem _ hw)) (fun w hw => by cases hw; exact hy) v h1
  exact this l none h (fun v hv => by cases hv)

theorem qAt_flat {pis : List ℚ} {c : ℚ} (h : ∀ x ∈ pis, x = c) {i : Nat} (hi : i < pis.length) : qAt pis i = c := by
  unfold qAt
  rw [List.getD_eq_getElem?_getD, List.getElem?_eq_getElem hi]
  exact h _ (List.getElem_mem _)

theorem perfectRatio_flat {pis : List ℚ} {c : ℚ} (hc : c ≠ 0) (h : ∀ x ∈ pis, x = c) (ce : List Nat) :
    Spec.Flat 1 (perfectRatio pis ce) := by
  have hlev : Spec.Flat c (levelAtEvents pis ce) := by
    unfold levelAtEvents
    apply cellAt_ffill_flat
    apply flat_map
    intro i hi v hv
    split_ifs at hv
    cases hv
    exact qAt_flat h (List.mem_range.mp hi)
  have hrel : Spec.Flat 1 (relativeToEvent pis ce) := by
    unfold relativeToEvent
    apply flat_map
    intro i hi v hv
    rw [qAt_flat h (List.mem_range.mp hi)] at hv
    cases hx : cellAt (levelAtEvents pis ce) i with
    | none => rw [hx] at hv; cases hv
    | some x =>
      rw [hx, hlev.cellAt hx] at hv
      simp only [cellDiv, if_neg hc, cellOp] at hv
      cases hv
      field_simp
  cases ce with
  | nil =>
    unfold perfectRatio
    simp only
    apply flat_map
    intro i _ v hv
    cases hv
    rfl
  | cons c0 ce =>
    unfold perfectRatio
    simp only
    apply flat_map
    intro i hi v hv
    rw [qAt_flat h (List.mem_range.mp hi)] at hv
    split_ifs at hv
    · cases hm : mean (valids ((List.range pis.length).map fun j =>
          cellDiv (cellAt (relativeToEvent pis (c0 :: ce)) j) (some (qAt pis j)))) with
      | none => rw [hm] at hv; cases hv
      | some m =>
        rw [hm] at hv
        simp only [cellOp] at hv
        cases hv
        have : m = 1 / c := by
          refine mean_flat ?_ hm
          intro x hx
          obtain ⟨j, hj, e⟩ := List.mem_map.mp (mem_valids.mp hx)
          rw [qAt_flat h (List.mem_range.mp hj)] at e
          cases hr : cellAt (relativeToEvent pis (c0 :: ce)) j with
          | none => rw [hr] at e; cases e
          | some r =>
            rw [hr, hrel.cellAt hr] at e
            simp only [cellDiv, if_neg hc] at e
            cases e
            rfl
        rw [this]
        field_simp
    · exact hrel.cellAt hv

/-- the soiling ratio of a flat signal is one where it is known, with perfect cleaning or at level one -/
theorem kalman_flat {o : KalmanOpts} {fuel : Nat} {zs : List Cell} {pre : Prescient} {out : KalmanOut} {c : ℚ} (hc : c ≠ 0)
    (h : kalmanSR o fuel zs pre = .ok out) (hz : Spec.Flat c zs) (hp : o.perfect = true ∨ c = 1) (hr : o.renorm = none) :
    Spec.Flat 1 out.ratio := by
  have hk := C64_constant h hz
  obtain ⟨st, rfl, hh | ⟨hratio, -⟩⟩ := kalmanSR_columns h
  · show Spec.Flat 1 st.ratio
    rw [hh.2.1]
    apply flat_map
    intro x _ v hv
    cases hv
  · show Spec.Flat 1 st.ratio
    have hflat : Spec.Flat 1 (ratioOf o st.smooth st.ce) := by
      unfold ratioOf renormalize
      rw [hr]
      simp only
      have hs : ∀ x ∈ st.smooth.map (fun k => k.s.x), x = c := by
        intro x hx
        obtain ⟨k, hkm, rfl⟩ := List.mem_map.mp hx
        have := hk k.s (List.mem_map_of_mem hkm)
        rw [this]
      by_cases hpf : o.perfect = true
      · rw [if_pos hpf]
        exact perfectRatio_flat hc hs st.ce
      · rw [if_neg hpf]
        intro v hv
        obtain ⟨k, hkm, e⟩ := List.mem_map.mp hv
        cases e
        rw [hs _ (List.mem_map_of_mem hkm)]
        exact hp.resolve_left hpf
    rw [hratio]
    split_ifs
    · unfold clipUpper
      apply flat_map
      intro x hx v hv
      cases x with
      | none => cases hv
      | some y =>
        cases hv
        rw [hflat y hx]
        simp
    · exact hflat

theorem forcePeriodicity_flat {sig : List (Int × Cell)} {c : ℚ} (h : Spec.Flat c (sig.map Prod.snd)) (out : List Int) :
    Spec.Flat c ((forcePeriodicity sig out).map Prod.snd) := by
  unfold forcePeriodicity
  rw [List.map_map]
  intro v hv
  obtain ⟨t, -, e⟩ := List.mem_map.mp hv
  simp only [Function.comp_apply, medianSignal] at e
  split_ifs at e with hd
  have hne : valids (((trimmed sig).filter fun p => dayOfYear p.1 = dayOfYear t).map Prod.snd) ≠ [] :=
    median_isSome.mp (by rw [e]; rfl)
  have hall : ∀ x ∈ valids (((trimmed sig).filter fun p => dayOfYear p.1 = dayOfYear t).map Prod.snd), x = c := by
    intro x hx
    obtain ⟨p, hp, hpx⟩ := List.mem_map.mp (mem_valids.mp hx)
    have hp := (List.mem_filter.mp hp).1
    unfold trimmed at hp
    obtain ⟨i, hi, hpe⟩ := List.mem_mapIdx.mp hp
    rw [← hpe] at hpx
    simp only at hpx
    split_ifs at hpx
    exact h x (by rw [← hpx]; exact List.mem_map_of_mem (List.getElem_mem _))
  have := quantile_const (q := 1/2) (by norm_num) (by norm_num) hne hall
  unfold median at e
  rw [this] at e
  cases e
  rfl

/-- other packages treat a flat signal as expected: no season, a flat trend, no degradation -/
def Spec.envFlat (e : DecompEnv) : Prop :=
  (∀ c x s, Spec.Flat c x → e.stl x = .ok s → Spec.Flat 1 s.1 ∧ ∃ t, Spec.Flat t s.2) ∧
    ∀ c x d, Spec.Flat c x → e.yoy x = .ok d → d = 0

/-- all components are one -/
structure FlatInv (c : ℚ) (st : DecompState) : Prop where
  trend : Spec.Flat 1 st.trend
  seasonal : Spec.Flat 1 st.seasonal
  ratio : Spec.Flat 1 st.ratio
  df : ∀ k, st.df = some k → k.ratio = st.ratio
  shift : (st.ic = 0 ∧ st.perfect = true ∧ st.shift = some 1) ∨ ∀ v, st.shift = some v → v = c

theorem flat_congr {a b : ℚ} {l : List Cell} (e : a = b) (h : Spec.Flat a l) : Spec.Flat b l := e ▸ h

theorem flat_firstNormalized {t : List Cell} {c : ℚ} (h : Spec.Flat c t) : Spec.Flat 1 (firstNormalized t) := by
  unfold firstNormalized
  apply flat_map
  intro x hx v hv
  cases x with
  | none => cases h0 : cellAt t 0 <;> rw [h0] at hv <;> cases hv
  | some y =>
    cases h0 : cellAt t 0 with
    | none => rw [h0] at hv; cases hv
    | some z =>
      rw [h0, h.cellAt h0, h y hx] at hv
      simp only [cellDiv] at hv
      split_ifs at hv with hc
      cases hv
      exact div_self hc

theorem flat_step {e : DecompEnv} (he : Spec.envFlat e) {fuel : Nat} {o : DecompOpts} (hr : o.renorm = none) {day0 : Int}
    {pi : List Cell} {c : ℚ} (hc : c ≠ 0) (hpi : Spec.Flat c pi) (st s : DecompState) (hI : FlatInv c st)
    (h : fitComp e fuel o day0 pi { st with ic := st.ic + 1 } = .ok s) : FlatInv c (decideNext o (combine e pi s)).1 := by
  obtain ⟨d1, d2, d3, d4, -, d6, -⟩ := decideNext_frame o (combine e pi s)
  have key : Spec.Flat 1 s.trend ∧ Spec.Flat 1 s.seasonal ∧ Spec.Flat 1 s.ratio ∧ ∀ k, s.df = some k → k.ratio = s.ratio := by
    unfold fitComp at h
    cases hcomp : compAt { st with ic := st.ic + 1 }.order { st with ic := st.ic + 1 }.ic with
    | none => rw [hcomp] at h; cases h
    | some cc =>
      rw [hcomp] at h
      cases cc with
      | SR =>
        obtain ⟨a, ha, rfl⟩ := map_ok.mp h
        unfold fitSR at ha
        obtain ⟨p, -, ha⟩ := bind_ok'.mp ha
        obtain ⟨k, hk, ha⟩ := bind_ok'.mp ha
        cases ha
        refine ⟨hI.trend, hI.seasonal, ?_, fun k' hk' => by cases hk'; rfl⟩
        have hq : Spec.Flat c (cellsDiv (cellsDiv pi st.trend) st.seasonal) :=
          flat_congr (by simp) ((hpi.div hI.trend).div hI.seasonal)
        rcases hI.shift with ⟨-, hpf, hsh⟩ | hsh
        · refine kalman_flat hc hk ?_ (.inl hpf) hr
          apply flat_map
          intro x hx v hv
          simp only [hsh] at hv
          cases x with
          | none => cases hv
          | some y =>
            simp only [cellDiv, one_ne_zero, if_false, div_one, Option.some.injEq] at hv
            exact hv ▸ hq _ hx
        · refine kalman_flat (c := 1) one_ne_zero hk ?_ (.inr rfl) hr
          apply flat_map
          intro x hx v hv
          simp only at hv
          cases x with
          | none => cases hs : st.shift <;> rw [hs] at hv <;> cases hv
          | some y =>
            cases hs : st.shift with
            | none => rw [hs] at hv; cases hv
            | some w =>
              rw [hs, hsh w hs, hq y hx] at hv
              simp only [cellDiv, if_neg hc] at hv
              cases hv
              exact div_self hc
      | SC =>
        obtain ⟨a, ha, rfl⟩ := map_ok.mp h
        unfold fitSC at ha
        obtain ⟨p, hp, ha⟩ := bind_ok'.mp ha
        obtain ⟨h1, t, h2⟩ := he.1 _ _ _ (hpi.div hI.ratio) hp
        have hsea : Spec.Flat 1 ((forcePeriodicity ((daysFrom day0 p.1.length).zip p.1) (daysFrom day0 pi.length)).map Prod.snd) := by
          apply forcePeriodicity_flat
          intro v hv
          obtain ⟨q, hq, e⟩ := List.mem_map.mp hv
          have := (List.of_mem_zip hq).2
          rw [e] at this
          exact h1 v this
        dsimp only at ha
        by_cases ho : o.stl = true
        · rw [if_pos ho] at ha
          obtain ⟨d, -, ha⟩ := bind_ok'.mp ha
          cases ha
          exact ⟨flat_firstNormalized h2, hsea, hI.ratio, hI.df⟩
        · rw [if_neg ho] at ha
          cases ha
          exact ⟨hI.trend, hsea, hI.ratio, hI.df⟩
      | Rd =>
        obtain ⟨a, ha, rfl⟩ := map_ok.mp h
        unfold fitRd at ha
        obtain ⟨d, hd, ha⟩ := bind_ok'.mp ha
        have := he.2 _ _ _ ((hpi.div hI.seasonal).div hI.ratio) hd
        cases ha
        refine ⟨?_, hI.seasonal, hI.ratio, hI.df⟩
        show Spec.Flat 1 (linearTrend pi.length d)
        unfold linearTrend
        apply flat_map
        intro i _ v hv
        rw [this] at hv
        cases hv
        simp
  obtain ⟨k1, k2, k3, k4⟩ := key
  refine ⟨by rw [d1]; exact k1, by rw [d2]; exact k2, by rw [d3]; exact k3, by rw [d4, d3]; exact k4, .inr ?_⟩
  rw [d6]
  intro v hv
  have hres : Spec.Flat c (cellsDiv pi (cellsMul (cellsMul s.trend s.seasonal) s.ratio)) :=
    flat_congr (by simp) (hpi.div ((k1.mul k2).mul k3))
  exact hres.mean hv

/-- of a flat performance index every component found in the iterations is one on all days with a value; only the last step
(see below) fails -/
theorem C72_components_partial {e : DecompEnv} (he : Spec.envFlat e) {fuel : Nat} {o : DecompOpts} (hr : o.renorm = none)
    {day0 : Int} {pi : List Cell} {c : ℚ} (hc : c ≠ 0) (hpi : Spec.Flat c pi) {pce : List Bool} {st : DecompState}
    (h : decompLoop e fuel o day0 pi o.maxIterations (initState e o pi pce) = .ok st) :
    Spec.Flat 1 st.ratio ∧ Spec.Flat 1 st.seasonal ∧ Spec.Flat 1 st.trend := by
  have hone : Spec.Flat 1 (pi.map fun _ => (some 1 : Cell)) := flat_map fun _ _ v hv => by cases hv; rfl
  have hF : FlatInv c st := loop_preserve (P := FlatInv c) (flat_step he hr hc hpi) o.maxIterations
    (st := initState e o pi pce) ⟨hone, hone, hone, fun k hk => (by cases hk), .inl ⟨rfl, rfl, rfl⟩⟩ h
  exact ⟨hF.ratio, hF.seasonal, hF.trend⟩

/-- a flat performance index, which every component describes perfectly, gets no result (or a result without a single
residual): the spread of the residuals is zero and the comparison with it divides by zero -/
theorem C72_flat_refuted {e : DecompEnv} (he : Spec.envFlat e) {fuel : Nat} {o : DecompOpts} (hr : o.renorm = none) {day0 : Int}
    {pi : List Cell} {c : ℚ} (hc : c ≠ 0) (hpi : Spec.Flat c pi) {out : Decomp} (h : decompose e fuel o day0 pi = .ok out) :
    ∀ v, some v ∉ out.residuals := by
  obtain ⟨-, pce, st, k, h1, h2, h3, -⟩ := decompose_ok h
  have hone : Spec.Flat 1 (pi.map fun _ => (some 1 : Cell)) := flat_map fun _ _ v hv => by cases hv; rfl
  have hF : FlatInv c st := loop_preserve (P := FlatInv c) (flat_step he hr hc hpi) o.maxIterations
    (st := initState e o pi pce) ⟨hone, hone, hone, fun k hk => (by cases hk), .inl ⟨rfl, rfl, rfl⟩⟩ h1
  obtain ⟨k', hk', e1, -, -, e4, e5, hres, -, -, -, -, -, -, hsm⟩ := finish_ok h3
  have hfl : Spec.Flat c out.residuals := by
    rw [hres, e1, e4, e5, hF.df k' hk']
    exact flat_congr (by simp) (hpi.div ((hF.ratio.mul hF.seasonal).mul hF.trend))
  intro v hv
  have hne : valids out.residuals ≠ [] := List.ne_nil_of_mem (mem_valids.mpr hv)
  have hall : ∀ x ∈ valids out.residuals, x = c := fun x hx => hfl x (mem_valids.mp hx)
  unfold smallSignal amplitude cellQuantile at hsm
  rw [quantile_const (by norm_num) (by norm_num) hne hall, quantile_const (by norm_num) (by norm_num) hne hall] at hsm
  simp [cellOp] at hsm

/-! ## Concrete cases -/

/-- packages: no season, a loss of 36.5 % a year, stationary residuals -/
def exEnv : DecompEnv :=
  ⟨fun l => .ok (l.map fun _ => some 1, l.map fun _ => some 1), fun _ => .ok (-73 / 2), fun _ => .ok (-5, 1 / 100), id⟩

/-- an index of 14 days -/
def exPi : List Cell := (List.range 14).map fun i => some (if i % 3 = 0 then 1 else 2)

-- two rounds; after the change the first component of the order is fitted again
example : (decompose exEnv 3 { order := [.SR, .Rd], maxIterations := 4 } 19000 exPi).map (fun d => d.log) =
    .ok [(.SR, true), (.Rd, true), (.SR, false), (.Rd, false)] := by decide +kernel
-- the trend
example : (decompose exEnv 3 { order := [.SR, .Rd], maxIterations := 2 } 19000 exPi).map
    (fun d => (d.degradation, cellAt d.trend 0, cellAt d.trend 13)) = .ok (-73 / 2, some 1, some (987 / 1000)) := by decide +kernel
-- index = product of the components and the residual; loss and shift
example : (decompose exEnv 3 { order := [.SR], maxIterations := 1 } 19000 exPi).map
    (fun d => (cellAt d.residuals 3, cellAt d.residuals 4, d.shift, d.soilingLoss)) =
      .ok (some 1, some 2, some (23 / 14), some 0) := by decide +kernel
-- the third place
example : (decompose exEnv 3 { order := [.SC, .Rd, .SR], maxIterations := 4 } 19000 exPi).map (fun d => d.log) =
    .error .indexError := by decide +kernel
-- one iteration, soiling second
example : (decompose exEnv 3 { order := [.Rd, .SR], maxIterations := 1 } 19000 exPi).map (fun d => d.log) =
    .error .indexError := by decide +kernel
example : Spec.envNoIdx exEnv := by
  refine ⟨?_, ?_, ?_⟩ <;> intro x h <;> cases h
-- a flat index
example : (decompose exEnv 3 { order := [.SR], maxIterations := 2 } 19000 ((List.replicate 14 (9 / 10 : ℚ)).map some)).map
    (fun d => d.log) = .error .zeroDivisionError := by decide +kernel

/-- the comment "Reorder to ensure SR first" does not hold: with the order `('Rd', 'SR')` the degradation component comes first
after the change -/
theorem C39_sr_first_refuted : (decompose exEnv 3 { order := [.Rd, .SR], maxIterations := 3 } 19000 exPi).map (fun d => d.log) =
    .ok [(.Rd, true), (.SR, true), (.Rd, false)] := by decide +kernel

end Verif.Cods
