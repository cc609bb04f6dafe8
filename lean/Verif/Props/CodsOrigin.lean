import Verif.Props.CodsFlat

/-! # Property C71 (where the components come from) -/

namespace Verif.Cods

open Verif

/-- the component was fitted at least once -/
def Fitted (log : List (Comp × Bool)) (c : Comp) : Prop := ∃ b, (c, b) ∈ log

/-- the components fitted after the last fit of a component -/
def Spec.since (log : List (Comp × Bool)) (c : Comp) : List Comp := (log.reverse.map Prod.fst).takeWhile (· ≠ c)

/-- the origin of the seasonal component, of the trend and of the rate, as far as they are fitted by STL -/
def StlOrigin (e : DecompEnv) (stl : Bool) (day0 : Int) (pi current seasonal trend : List Cell) (deg : ℚ)
    (since : List Comp) : Prop :=
  ∃ (ratio : List Cell) (s : List Cell × List Cell), e.stl (cellsDiv pi ratio) = .ok s ∧
    seasonal = (forcePeriodicity ((daysFrom day0 s.1.length).zip s.1) (daysFrom day0 pi.length)).map Prod.snd ∧
    (stl = true → trend = firstNormalized s.2 ∧ e.yoy trend = .ok deg) ∧ (Comp.SR ∉ since → ratio = current)

/-- the origin of the rate of the year-on-year method -/
def YoyOrigin (e : DecompEnv) (pi curSeasonal curRatio : List Cell) (deg : ℚ) (since : List Comp) : Prop :=
  ∃ seasonal ratio : List Cell, e.yoy (cellsDiv (cellsDiv pi seasonal) ratio) = .ok deg ∧
    (Comp.SC ∉ since → seasonal = curSeasonal) ∧ (Comp.SR ∉ since → ratio = curRatio)

structure Origin (e : DecompEnv) (o : DecompOpts) (day0 : Int) (pi : List Cell) (st : DecompState) : Prop where
  noRd : o.stl = true → Comp.Rd ∉ st.order
  unfitted : ¬ Fitted st.log .SC → st.seasonal = (pi.map fun _ => some 1) ∧
    (o.stl = true → st.trend = (pi.map fun _ => some 1) ∧ st.deg = 0)
  fitted : Fitted st.log .SC → StlOrigin e o.stl day0 pi st.ratio st.seasonal st.trend st.deg (Spec.since st.log .SC)
  unfittedRd : o.stl = false → ¬ Fitted st.log .Rd → st.deg = 0
  fittedRd : o.stl = false → Fitted st.log .Rd → YoyOrigin e pi st.seasonal st.ratio st.deg (Spec.since st.log .Rd)

theorem fitted_append {log : List (Comp × Bool)} {c d : Comp} {b : Bool} :
    Fitted (log ++ [(d, b)]) c ↔ Fitted log c ∨ c = d := by
  unfold Fitted
  constructor
  · rintro ⟨b', h⟩
    rcases List.mem_append.mp h with h | h
    · exact .inl ⟨b', h⟩
    · simp only [List.mem_singleton, Prod.mk.injEq] at h
      exact .inr h.1
  · rintro (⟨b', h⟩ | rfl)
    · exact ⟨b', List.mem_append_left _ h⟩
    · exact ⟨b, List.mem_append_right _ (List.mem_singleton.mpr rfl)⟩

theorem since_append (log : List (Comp × Bool)) (c d : Comp) (b : Bool) :
    Spec.since (log ++ [(d, b)]) c = if d = c then [] else d :: Spec.since log c := by
  unfold Spec.since
  by_cases h : d = c <;> simp [h]

theorem origin_step {e : DecompEnv} {fuel : Nat} {o : DecompOpts} {day0 : Int} {pi : List Cell} (st s : DecompState)
    (hI : Origin e o day0 pi st) (h : fitComp e fuel o day0 pi { st with ic := st.ic + 1 } = .ok s) :
    Origin e o day0 pi (decideNext o (combine e pi s)).1 := by
  obtain ⟨d1, d2, d3, -, d5, -, -, d8, -⟩ := decideNext_frame o (combine e pi s)
  have hR' : o.stl = true → Comp.Rd ∉ (decideNext o (combine e pi s)).1.order := by
    intro ho hm
    have := decideNext_order o _ hm
    have e1 : (combine e pi s).order = st.order := (fitComp_frame h).order
    rw [e1] at this
    exact hI.noRd ho this
  suffices hD : (¬ Fitted s.log .SC → s.seasonal = (pi.map fun _ => some 1) ∧
      (o.stl = true → s.trend = (pi.map fun _ => some 1) ∧ s.deg = 0)) ∧
      (Fitted s.log .SC → StlOrigin e o.stl day0 pi s.ratio s.seasonal s.trend s.deg (Spec.since s.log .SC)) ∧
      (o.stl = false → ¬ Fitted s.log .Rd → s.deg = 0) ∧
      (o.stl = false → Fitted s.log .Rd → YoyOrigin e pi s.seasonal s.ratio s.deg (Spec.since s.log .Rd)) by
    obtain ⟨h1, h2, h3, h4⟩ := hD
    refine ⟨hR', ?_, ?_, ?_, ?_⟩
    all_goals rw [d8]
    · rw [d1, d2, d5]; exact h1
    · rw [d1, d2, d3, d5]; exact h2
    · rw [d5]; exact h3
    · rw [d2, d3, d5]; exact h4
  unfold fitComp at h
  cases hc : compAt { st with ic := st.ic + 1 }.order { st with ic := st.ic + 1 }.ic with
  | none => rw [hc] at h; cases h
  | some c =>
    rw [hc] at h
    have hmem : c ∈ st.order := by unfold compAt at hc; exact List.mem_of_getElem? hc
    cases c with
    | SR =>
      obtain ⟨a, ha, rfl⟩ := map_ok.mp h
      unfold fitSR at ha
      obtain ⟨p, -, ha⟩ := bind_ok'.mp ha
      obtain ⟨k, hk, ha⟩ := bind_ok'.mp ha
      cases ha
      simp only [fitted_append, since_append, reduceCtorEq, or_false, if_false]
      refine ⟨hI.unfitted, fun h => ?_, hI.unfittedRd, fun hs h => ?_⟩
      · obtain ⟨r, q, h1, h2, h3, -⟩ := hI.fitted h
        exact ⟨r, q, h1, h2, h3, fun h => absurd (List.mem_cons_self ..) h⟩
      · obtain ⟨u, r, h1, h2, -⟩ := hI.fittedRd hs h
        exact ⟨u, r, h1, fun h => h2 fun hm => h (List.mem_cons_of_mem _ hm), fun h => absurd (List.mem_cons_self ..) h⟩
    | SC =>
      obtain ⟨a, ha, rfl⟩ := map_ok.mp h
      unfold fitSC at ha
      obtain ⟨q, hq, ha⟩ := bind_ok'.mp ha
      simp only at hq
      by_cases hs : o.stl = true
      · rw [if_pos hs] at ha
        obtain ⟨d, hd, ha⟩ := bind_ok'.mp ha
        cases ha
        refine ⟨fun h => absurd (fitted_append.mpr (.inr rfl)) h, fun _ => ⟨st.ratio, q, hq, rfl, fun _ => ⟨rfl, hd⟩, fun _ => rfl⟩,
          fun h => ?_, fun h => ?_⟩
        all_goals rw [hs] at h; cases h
      · rw [if_neg hs] at ha
        cases ha
        refine ⟨fun h => absurd (fitted_append.mpr (.inr rfl)) h,
          fun _ => ⟨st.ratio, q, hq, rfl, fun h => absurd h hs, fun _ => rfl⟩, ?_, ?_⟩
        all_goals simp only [fitted_append, since_append, reduceCtorEq, or_false, if_false]
        · exact hI.unfittedRd
        · intro hs' h
          obtain ⟨u, r, h1, -, h2⟩ := hI.fittedRd hs' h
          exact ⟨u, r, h1, fun h => absurd (List.mem_cons_self ..) h, fun h => h2 fun hm => h (List.mem_cons_of_mem _ hm)⟩
    | Rd =>
      obtain ⟨a, ha, rfl⟩ := map_ok.mp h
      unfold fitRd at ha
      obtain ⟨d, hd, ha⟩ := bind_ok'.mp ha
      cases ha
      have hs : ¬ o.stl = true := fun hs => hI.noRd hs hmem
      refine ⟨?_, ?_, fun _ h => absurd (fitted_append.mpr (.inr rfl)) h, fun _ _ => ⟨_, _, hd, fun _ => rfl, fun _ => rfl⟩⟩
      all_goals simp only [fitted_append, since_append, reduceCtorEq, or_false, if_false]
      · exact fun h => ⟨(hI.unfitted h).1, fun h => absurd h hs⟩
      · intro h
        obtain ⟨r, q, h1, h2, -, h3⟩ := hI.fitted h
        exact ⟨r, q, h1, h2, fun h => absurd h hs, fun h => h3 fun hm => h (List.mem_cons_of_mem _ hm)⟩

theorem origin_init (e : DecompEnv) (o : DecompOpts) (day0 : Int) (pi : List Cell) (pce : List Bool) :
    Origin e o day0 pi (initState e o pi pce) := by
  refine ⟨?_, fun _ => ⟨rfl, fun _ => ⟨rfl, rfl⟩⟩, ?_, fun _ _ => rfl, ?_⟩
  · intro hs hm
    change Comp.Rd ∈ effectiveOrder o at hm
    unfold effectiveOrder at hm
    rw [if_pos hs] at hm
    simp at hm
  · rintro ⟨b, hb⟩; cases hb
  · rintro _ ⟨b, hb⟩; cases hb

theorem origin_of {e : DecompEnv} {fuel : Nat} {o : DecompOpts} {day0 : Int} {pi : List Cell} {out : Decomp}
    (h : decompose e fuel o day0 pi = .ok out) :
    ∃ st, Origin e o day0 pi st ∧ out.seasonal = st.seasonal ∧ out.trend = st.trend ∧ out.degradation = st.deg ∧
      out.log = st.log ∧ out.ratio = st.ratio := by
  obtain ⟨-, pce, st, k, h1, -, h3, h4⟩ := decompose_ok h
  obtain ⟨k, hk, hra, -, -, hsea, htr, -, -, -, hdeg, -⟩ := finish_ok h3
  have hD := (loop_preserve (P := fun st => DataInv fuel o day0 pi st ∧ (o.stl = true → Comp.Rd ∉ st.order))
    dataInv_step o.maxIterations initState_data h1).1
  exact ⟨st, loop_preserve (P := Origin e o day0 pi) origin_step o.maxIterations (origin_init e o day0 pi pce) h1,
    hsea, htr, hdeg, h4, by rw [hra, (hD.df k hk).1]⟩

theorem fitted_in_order {e : DecompEnv} {fuel : Nat} {o : DecompOpts} {day0 : Int} {pi : List Cell} {out : Decomp}
    (h : decompose e fuel o day0 pi = .ok out) {c : Comp} (hf : Fitted out.log c) : c ∈ effectiveOrder o := by
  obtain ⟨b, hb⟩ := hf
  obtain ⟨l1, l2, hl, h1, h2, -⟩ := C39_iterations h
  rw [hl] at hb
  have key : ∀ l : List Comp, Spec.Cyclic (effectiveOrder o) l → c ∈ l → c ∈ effectiveOrder o := by
    intro l hc hm
    obtain ⟨i, hi⟩ := List.mem_iff_getElem?.mp hm
    have := hc i (List.getElem?_eq_some_iff.mp hi).1
    rw [hi] at this
    exact List.mem_of_getElem? this.symm
  rcases List.mem_append.mp hb with hb | hb
  · obtain ⟨x, hx, he⟩ := List.mem_map.mp hb
    cases he
    exact key l1 h1 hx
  · obtain ⟨x, hx, he⟩ := List.mem_map.mp hb
    cases he
    exact key l2 h2 hx

/-- **C71 (components left out).** Without the seasonal component in the order it is one on every day; without the degradation
component (or, with the trend of STL, without the seasonal one) the degradation rate is zero and the trend is one on every day. -/
theorem C71_left_out {e : DecompEnv} {fuel : Nat} {o : DecompOpts} {day0 : Int} {pi : List Cell} {out : Decomp}
    (h : decompose e fuel o day0 pi = .ok out) :
    (Comp.SC ∉ o.order → ∀ i < pi.length, cellAt out.seasonal i = some 1) ∧
    ((if o.stl then Comp.SC else Comp.Rd) ∉ o.order →
      out.degradation = 0 ∧ ∀ i < pi.length, cellAt out.trend i = some 1) := by
  obtain ⟨st, hO, hs, ht, hd, hl, -⟩ := origin_of h
  have hsub : ∀ c, c ∈ effectiveOrder o → c ∈ o.order := by
    intro c hc
    unfold effectiveOrder at hc
    split_ifs at hc
    · exact List.mem_of_mem_filter hc
    · exact hc
  have hno : ∀ c, c ∉ o.order → ¬ Fitted st.log c := fun c hc hf => hc (hsub c (fitted_in_order h (by rw [hl]; exact hf)))
  have hone : ∀ i < pi.length, cellAt (pi.map fun _ => (some 1 : Cell)) i = some 1 := by
    intro i hi
    unfold cellAt
    rw [List.getElem?_map, List.getElem?_eq_getElem hi]
    rfl
  refine ⟨fun hc => ?_, fun hc => ?_⟩
  · rw [hs, (hO.unfitted (hno _ hc)).1]
    exact hone
  · by_cases hstl : o.stl = true
    · rw [if_pos hstl] at hc
      obtain ⟨h1, h2⟩ := (hO.unfitted (hno _ hc)).2 hstl
      rw [hd, ht, h1, h2]
      exact ⟨rfl, hone⟩
    · rw [if_neg hstl] at hc
      have hz : out.degradation = 0 := by rw [hd]; exact hO.unfittedRd (by simpa using hstl) (hno _ hc)
      refine ⟨hz, fun i hi => ?_⟩
      rw [C71_trend h (by simpa using hstl) hi, hz]
      simp

/-- `x` is the series `a` divided day by day by `b` -/
def Spec.Quotient (a b x : List Cell) : Prop :=
  x.length = min a.length b.length ∧
    ∀ i v, cellAt x i = some v ↔ ∃ p q, cellAt a i = some p ∧ cellAt b i = some q ∧ q ≠ 0 ∧ v = p / q

theorem cellsDiv_quotient (a b : List Cell) : Spec.Quotient a b (cellsDiv a b) := by
  refine ⟨by simp [cellsDiv], fun i v => ?_⟩
  rw [cellAt_div]
  unfold cellDiv
  cases cellAt a i <;> cases cellAt b i <;> simp [eq_comm]

/-- **C71 (seasonal component).** Once fitted, the seasonal component returned is the one found by STL in the index divided by a
soiling ratio (the one returned, unless the soiling was fitted again afterwards), averaged over the years; with the trend of STL,
the trend returned is the trend found there divided by its first value, and the degradation rate reported is the year-on-year rate
of the trend returned. -/
theorem C71_from_stl {e : DecompEnv} {fuel : Nat} {o : DecompOpts} {day0 : Int} {pi : List Cell} {out : Decomp}
    (h : decompose e fuel o day0 pi = .ok out) {b : Bool} (hf : (Comp.SC, b) ∈ out.log) :
    ∃ ratio x sc tr : List Cell, Spec.Quotient pi ratio x ∧ e.stl x = .ok (sc, tr) ∧
      (Comp.SR ∉ Spec.since out.log .SC → ratio = out.ratio) ∧
      out.seasonal = (forcePeriodicity ((daysFrom day0 sc.length).zip sc) (daysFrom day0 pi.length)).map Prod.snd ∧
      (o.stl = true → e.yoy out.trend = .ok out.degradation ∧
        ∀ i x y, cellAt tr 0 = some x → cellAt tr i = some y → x ≠ 0 → cellAt out.trend i = some (y / x)) := by
  obtain ⟨st, hO, hs, ht, hd, hl, hr⟩ := origin_of h
  obtain ⟨r, s, h1, h2, h3, h6⟩ := hO.fitted ⟨b, by rw [← hl]; exact hf⟩
  refine ⟨r, _, s.1, s.2, cellsDiv_quotient _ _, h1, by rw [hl, hr]; exact h6, by rw [hs]; exact h2, fun hstl => ?_⟩
  obtain ⟨h4, h5⟩ := h3 hstl
  refine ⟨by rw [ht, hd]; exact h5, fun i x y hx hy hne => ?_⟩
  rw [ht, h4]
  unfold firstNormalized
  rw [cellAt_map _ (by cases cellAt s.2 0 <;> rfl), hx, hy]
  simp [cellDiv, hne]

theorem from_yoy_cells {e : DecompEnv} {fuel : Nat} {o : DecompOpts} {day0 : Int} {pi : List Cell} {out : Decomp}
    (h : decompose e fuel o day0 pi = .ok out) (hs : o.stl = false) {b : Bool} (hf : (Comp.Rd, b) ∈ out.log) :
    ∃ seasonal ratio : List Cell, e.yoy (cellsDiv (cellsDiv pi seasonal) ratio) = .ok out.degradation ∧
      (Comp.SC ∉ Spec.since out.log .Rd → seasonal = out.seasonal) ∧
      (Comp.SR ∉ Spec.since out.log .Rd → ratio = out.ratio) := by
  obtain ⟨st, hO, hsea, -, hd, hl, hr⟩ := origin_of h
  rw [hd, hsea, hr, hl]
  exact hO.fittedRd hs ⟨b, by rw [← hl]; exact hf⟩

/-- **C71 (degradation rate).** With the year-on-year method the rate reported is the year-on-year rate of the index divided by a
seasonal component and a soiling ratio: those returned, unless fitted again after the last fit of the degradation. -/
theorem C71_from_yoy {e : DecompEnv} {fuel : Nat} {o : DecompOpts} {day0 : Int} {pi : List Cell} {out : Decomp}
    (h : decompose e fuel o day0 pi = .ok out) (hs : o.stl = false) {b : Bool} (hf : (Comp.Rd, b) ∈ out.log) :
    ∃ seasonal ratio x y : List Cell, Spec.Quotient pi seasonal x ∧ Spec.Quotient x ratio y ∧ e.yoy y = .ok out.degradation ∧
      (Comp.SC ∉ Spec.since out.log .Rd → seasonal = out.seasonal) ∧
      (Comp.SR ∉ Spec.since out.log .Rd → ratio = out.ratio) := by
  obtain ⟨p, q, h1, h2⟩ := from_yoy_cells h hs hf
  exact ⟨p, q, _, _, cellsDiv_quotient _ _, cellsDiv_quotient _ _, h1, h2⟩

-- the degradation was fitted last: its rate belongs to the season and the ratio returned; no season was fitted
example : (decompose exEnv 3 { order := [.SR, .Rd], maxIterations := 4 } 19000 exPi).map
    (fun d => (Spec.since d.log .Rd, Spec.since d.log .SR, cellAt d.seasonal 5)) = .ok ([], [.Rd], some 1) := by decide +kernel
-- season fitted, and the soiling not again afterwards
example : (decompose exEnv 3 { order := [.SR, .SC], maxIterations := 2, stl := true } 19000 exPi).map
    (fun d => (Spec.since d.log .SC, d.degradation, cellAt d.trend 5)) = .ok ([], -73 / 2, some 1) := by decide +kernel
-- no degradation in the order
example : (decompose exEnv 3 { order := [.SR, .SC], maxIterations := 2 } 19000 exPi).map
    (fun d => (d.degradation, cellAt d.trend 5)) = .ok (0, some 1) := by decide +kernel

end Verif.Cods
