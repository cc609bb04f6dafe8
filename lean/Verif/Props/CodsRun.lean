import Verif.Lemmas.CodsConst

/-! # Properties C64 (constant signals), C65 (cleaning events), C66 (termination) and C68 (smoothing between events) -/

namespace Verif.Cods

open Verif

/-! ## Constant signals -/

theorem valids_range_two {n : Nat} {f : Nat → Cell} (h : 2 ≤ (valids ((List.range n).map f)).length) : 2 ≤ n := by
  have : (valids ((List.range n).map f)).length ≤ n := by
    unfold valids
    refine (List.length_filterMap_le _ _).trans ?_
    simp
  omega

/-- a signal whose values all agree is reproduced exactly, with rate zero, whatever the events, options and missing days -/
theorem C64_constant {o : KalmanOpts} {fuel : Nat} {zs : List Cell} {pre : Prescient} {out : KalmanOut} {c : ℚ}
    (h : kalmanSR o fuel zs pre = .ok out) (hz : ∀ v, some v ∈ zs → v = c) : ∀ s ∈ out.smooth, s = ⟨c, 0⟩ := by
  obtain ⟨ce, R, p, st, -, hR, h3, h4, rfl, h5, h6⟩ := kalmanSR_ok h
  have hn := valids_range_two (cellVar_two hR).1
  have hm : ∀ v ∈ valids (rollFilled o.fwd 7 zs), v = c := fun v hv => rollFilled_const hz o.fwd 7 v (mem_valids.mp hv)
  have hl : (valids (rollFilled o.fwd 7 zs)).length = zs.length := by rw [valids_length_all h5, rollFilled_length]
  obtain ⟨hs, hi⟩ := initialFit_const hz h6 hn
  have := pruneLoop_const hz hm hl hs hi (filterPass_const hz hm hl hs hi h3) h4
  intro s hsm
  obtain ⟨k, hk, rfl⟩ := List.mem_map.mp hsm
  exact this k hk

/-- without the assumption of perfect cleaning the soiling ratio of a constant signal is that constant, cut at 1 -/
theorem C64_constant_ratio {o : KalmanOpts} {fuel : Nat} {zs : List Cell} {pre : Prescient}
    {out : KalmanOut} {c : ℚ} (h : kalmanSR o fuel zs pre = .ok out) (hz : ∀ v, some v ∈ zs → v = c)
    (hp : o.perfect = false) (hr : o.renorm = none) (hit : 0 < o.pruningIterations) (hc : o.clip = true) :
    ∀ v ∈ out.ratio, v = some (min c 1) := by
  have hk := C64_constant h hz
  obtain ⟨st, rfl, hh | ⟨hratio, -⟩⟩ := kalmanSR_columns h
  · omega
  · intro v hv
    have hv : v ∈ st.ratio := hv
    rw [hratio, if_pos hc] at hv
    unfold clipUpper ratioOf renormalize at hv
    rw [hr, if_neg (by simp [hp])] at hv
    simp only [List.map_map, List.mem_map] at hv
    obtain ⟨k, hkm, rfl⟩ := hv
    have := hk k.s (List.mem_map_of_mem hkm)
    simp [this]

/-! ## Termination and success -/

/-- cleaning events handed over as a series have to have the length of the data (if they are used) -/
def Spec.fits (n : Nat) : Prescient → Prop
  | .series b => b.length = n
  | .positions l => l.Pairwise (· ≤ ·) ∧ ∀ e ∈ l, e < n
  | .none => True

theorem startEvents_ok {zs : List Cell} (hn : 10 < zs.length) {pre : Prescient} (hp : Spec.fits zs.length pre) :
    ∃ ce, startEvents zs pre = .ok ce := by
  cases pre with
  | none => exact ownEvents_ok hn
  | positions l => exact ⟨l, rfl⟩
  | series b =>
    unfold startEvents
    simp only
    split_ifs with h1 h2
    · exact ⟨_, rfl⟩
    · exact absurd hp h2
    · exact ownEvents_ok hn

/-- the filter succeeds on every series of at least 13 days whose first and last day have a value, for non-zero noise
parameters and at most 100 pruning iterations: no singular matrix, no failing event search, and the loop ends -/
theorem C66_succeeds_partial {o : KalmanOpts} (hp : o.processNoise ≠ 0) (hr : o.rateStd ≠ 0) (hit : o.pruningIterations ≤ 100)
    {zs : List Cell} (hn : 13 ≤ zs.length) (h0 : (cellAt zs 0).isSome = true)
    (h1 : (cellAt zs (zs.length - 1)).isSome = true) {pre : Prescient} (hpre : Spec.fits zs.length pre) {fuel : Nat}
    (hf : o.pruningIterations ≤ fuel) : ∃ out, kalmanSR o fuel zs pre = .ok out := by
  obtain ⟨ce, hce⟩ := startEvents_ok (by omega) hpre
  have hv : Spec.validEvents zs.length pre := by
    cases pre with
    | none => trivial
    | positions l => exact hpre
    | series b => trivial
  have hd : ∀ {i : Nat}, i < zs.length → (cellAt zs i).isSome = true →
      (cellAt ((List.range zs.length).map fun i => cellOp (fun a b => a - b) (cellAt (rollFilled o.fwd 13 zs) i) (cellAt zs i)) i).isSome = true := by
    intro i hi hz
    have e : cellAt ((List.range zs.length).map fun i => cellOp (fun a b => a - b) (cellAt (rollFilled o.fwd 13 zs) i) (cellAt zs i)) i =
        cellOp (fun a b => a - b) (cellAt (rollFilled o.fwd 13 zs) i) (cellAt zs i) := by
      conv_lhs => unfold cellAt
      rw [List.getElem?_map, List.getElem?_range hi]; rfl
    rw [e]
    have hs : (cellAt (rollFilled o.fwd 13 zs) i).isSome = true := by
      unfold cellAt
      rw [List.getElem?_eq_getElem (by rw [rollFilled_length]; exact hi), Option.join_some]
      exact rollFilled_all h0 h1 o.fwd (by omega) (by omega) hn _ (List.getElem_mem _)
    obtain ⟨a, ha⟩ := Option.isSome_iff_exists.mp hs
    obtain ⟨b, hb⟩ := Option.isSome_iff_exists.mp hz
    rw [ha, hb]; rfl
  have h2 := valids_two (by omega : 0 < zs.length - 1) (hd (by omega) h0) (hd (by omega) h1)
  obtain ⟨R, hR⟩ : ∃ R, cellVar ((List.range zs.length).map fun i =>
      cellOp (fun a b => a - b) (cellAt (rollFilled o.fwd 13 zs) i) (cellAt zs i)) = some R := by
    unfold cellVar
    rw [if_neg (by omega)]
    exact ⟨_, rfl⟩
  have hR0 := (cellVar_two hR).2
  have hall : (rollFilled o.fwd 7 zs).all Option.isSome = true :=
    List.all_eq_true.mpr (rollFilled_all h0 h1 o.fwd (by omega) (by omega) (by omega))
  have hb : ((bfill zs).take 14).all Option.isSome = true :=
    List.all_eq_true.mpr fun c hc => bfill_last_all h1 c (List.mem_of_mem_take hc)
  have hse : ∀ e ∈ truePos (soilingEvents o.fwd 5 zs), e < zs.length := by
    intro e he
    have := getB_lt (mem_truePos.mp he)
    rwa [length_soilingEvents] at this
  obtain ⟨p, hpp, hp2⟩ := filterPass_ok (o := o) hp (zs := zs) (by intro e; rw [e] at hn; simp at hn)
    (rm7 := valids (rollFilled o.fwd 7 zs)) hR0 (fit := initialFit zs) (se := truePos (soilingEvents o.fwd 5 zs))
    (a := o.zsStd) hr (ce := ce)
  have hinv := filterPass_inv hse (startEvents_evOk hv hce) hpp
  obtain ⟨st, hst⟩ := pruneLoop_ok (o := o) hp hit (zs := zs) (by omega) (rm7 := valids (rollFilled o.fwd 7 zs)) hR0
    (fit := initialFit zs) hse (fuel := fuel) (counter := 0)
    (st := ⟨p.1, p.2.1, zs.map fun _ => none, zs.map fun _ => none, p.2.2.1, p.2.2.2⟩) (by omega) ⟨hinv.1, hinv.2⟩ hp2
  refine ⟨kalmanOut zs.length st, ?_⟩
  unfold kalmanSR
  refine bind_ok'.mpr ⟨ce, hce, ?_⟩
  simp only [hR]
  rw [if_pos (by rw [hall, hb]; rfl)]
  exact bind_ok'.mpr ⟨p, hpp, bind_ok'.mpr ⟨st, hst, rfl⟩⟩

theorem pruneLoop_fuel {o : KalmanOpts} {zs : List Cell} {rm7 : List ℚ} {R : ℚ} {fit : TheilFit} {se : List Nat} :
    ∀ {fuel counter : Nat} {st st' : KalmanState}, pruneLoop o zs rm7 R fit se fuel counter st = .ok st' →
      ∀ k, pruneLoop o zs rm7 R fit se (fuel + k) counter st = .ok st' := by
  intro fuel
  induction fuel with
  | zero =>
    intro counter st st' h k
    unfold pruneLoop at h
    split_ifs at h with hc
    cases h
    cases k with
    | zero => unfold pruneLoop; rw [if_neg hc]
    | succ k => rw [Nat.zero_add]; unfold pruneLoop; rw [if_neg hc]
  | succ fuel ih =>
    intro counter st st' h k
    rw [Nat.succ_add]
    unfold pruneLoop at h ⊢
    by_cases hc : counter < o.pruningIterations
    · rw [if_pos hc] at h ⊢
      obtain ⟨ce, hce, h⟩ := bind_ok'.mp h
      refine bind_ok'.mpr ⟨ce, hce, ?_⟩
      by_cases he : ce = st.ce
      · rw [if_pos he] at h ⊢
        exact ih h k
      · rw [if_neg he] at h ⊢
        obtain ⟨p, hp, h⟩ := bind_ok'.mp h
        exact bind_ok'.mpr ⟨p, hp, ih h k⟩
    · rw [if_neg hc] at h ⊢
      exact h

/-- the bound on the number of passes in the model is immaterial -/
theorem C66_fuel {o : KalmanOpts} {fuel : Nat} {zs : List Cell} {pre : Prescient} {out : KalmanOut}
    (h : kalmanSR o fuel zs pre = .ok out) (k : Nat) : kalmanSR o (fuel + k) zs pre = .ok out := by
  obtain ⟨ce, R, p, st, h1, hR, h3, h4, rfl, h5, h6⟩ := kalmanSR_ok h
  unfold kalmanSR
  refine bind_ok'.mpr ⟨ce, h1, ?_⟩
  simp only [hR]
  rw [if_pos (by rw [h5, h6]; rfl)]
  exact bind_ok'.mpr ⟨p, h3, bind_ok'.mpr ⟨st, pruneLoop_fuel h4 k, rfl⟩⟩

/-- with more than 100 pruning iterations a pass that leaves the events as they are is repeated for ever -/
theorem pruneLoop_diverges {o : KalmanOpts} (hit : 100 < o.pruningIterations) {zs : List Cell} {rm7 : List ℚ} {R : ℚ}
    {fit : TheilFit} {se : List Nat} : ∀ {fuel counter : Nat} {st : KalmanState}, counter < o.pruningIterations →
      revise o st = .ok st.ce → pruneLoop o zs rm7 R fit se fuel counter st = .error .runtimeError := by
  intro fuel
  induction fuel with
  | zero =>
    intro counter st hc _
    unfold pruneLoop
    rw [if_pos hc]
  | succ fuel ih =>
    intro counter st hc hr
    unfold pruneLoop
    rw [if_pos hc, hr]
    change (if st.ce = st.ce then pruneLoop o zs rm7 R fit se fuel 100 (finishPass o st) else _) = _
    rw [if_pos rfl]
    apply ih hit
    unfold revise at hr ⊢
    rw [finishPass_ce, finishPass_smooth]
    exact hr

theorem revise_constant {o : KalmanOpts} (hm : 0 ≤ o.maxRate) {st : KalmanState} {c : ℚ} (h : ∀ k ∈ st.smooth, k.s = ⟨c, 0⟩)
    (hce : st.ce = []) : revise o st = .ok st.ce := by
  unfold revise
  rw [hce]
  refine bind_ok'.mpr ⟨[], by unfold pruneEvents; rw [if_pos rfl], ?_⟩
  unfold addEvents
  rw [if_neg]
  have : ((st.smooth.map fun k => k.s.r).map fun r => decide (o.maxRate < r)).count true = 0 := by
    rw [List.count_eq_zero]
    intro hmem
    simp only [List.map_map, List.mem_map] at hmem
    obtain ⟨k, hk, e⟩ := hmem
    rw [Function.comp_apply, h k hk] at e
    have : o.maxRate < 0 := of_decide_eq_true e
    linarith
  omega

theorem forward_no_events {pn R : ℚ} {n : Nat} {rm7 : List ℚ} {se : List Nat} {zs : List Cell} {i : Nat} {k : KF} :
    (forwardFrom pn R n rm7 se i k [] zs).2 = [] := by
  induction zs generalizing i k with
  | nil => rfl
  | cons z zs ih =>
    unfold forwardFrom
    simp only
    have : (predictDay pn R n rm7 se i k []).2 = [] := by
      unfold predictDay setControl
      split_ifs <;> simp_all
    rw [this]
    exact ih

/-- the loop does not end for a constant signal and more than 100 pruning iterations, however long one waits -/
theorem C66_diverges_refuted {o : KalmanOpts} (hp : o.processNoise ≠ 0) (hr : o.rateStd ≠ 0) (hm : 0 ≤ o.maxRate)
    (hit : 100 < o.pruningIterations) {n : Nat} (hn : 13 ≤ n) (c : ℚ) :
    ∀ fuel out, kalmanSR o fuel (List.replicate n (some c)) (.positions []) ≠ .ok out := by
  intro fuel out h
  have hz : ∀ v, some v ∈ List.replicate n (some c) → v = c := fun v hv => Option.some.inj (List.eq_of_mem_replicate hv)
  obtain ⟨ce, R, p, st, h1, hR, h3, h4, -, h5, h6⟩ := kalmanSR_ok h
  cases h1
  have hl : (valids (rollFilled o.fwd 7 (List.replicate n (some c)))).length = (List.replicate n (some c)).length := by
    rw [valids_length_all h5, rollFilled_length]
  have hmm : ∀ v ∈ valids (rollFilled o.fwd 7 (List.replicate n (some c))), v = c :=
    fun v hv => rollFilled_const hz o.fwd 7 v (mem_valids.mp hv)
  obtain ⟨hs, hi⟩ := initialFit_const hz h6 (by simp; omega)
  have hc := filterPass_const hz hmm hl hs hi h3
  have hce : p.1 = [] := by
    unfold filterPass at h3
    obtain ⟨sm, -, rfl⟩ := map_ok.mp h3
    exact forward_no_events
  rw [pruneLoop_diverges hit (by omega) (revise_constant hm hc hce)] at h4
  cases h4

-- the hypotheses of the success theorem are met by series with gaps and steps, those of divergence by any constant
example : kalmanSR { pruningIterations := 101 } 200 (List.replicate 13 (some 1)) (.positions []) = .error .runtimeError := by
  decide +kernel
example : (kalmanSR {} 1 ((List.range 15).map fun i => if i % 3 = 1 then none else some (3/4)) .none).map
    (fun o => (o.smooth.head?, o.ratio.all fun c => decide (c = some (3/4)))) = .ok (some ⟨3/4, 0⟩, true) := by decide +kernel

end Verif.Cods
