import Verif.Lemmas.CodsDecomp

/-! # The Kalman filter and the event search do not raise `IndexError` -/

namespace Verif.Cods

open Verif

/-- not an `IndexError` -/
def NoIdx {α : Type} (x : Except PyErr α) : Prop := x ≠ .error .indexError

theorem NoIdx.ok {α : Type} (a : α) : NoIdx (.ok a : Except PyErr α) := by intro h; cases h

theorem NoIdx.bind {α β : Type} {x : Except PyErr α} {f : α → Except PyErr β} (h : NoIdx x) (hf : ∀ a, x = .ok a → NoIdx (f a)) :
    NoIdx (x >>= f) := by
  cases x with
  | error e => intro h'; exact h (by cases e <;> first | rfl | cases h')
  | ok a => exact hf a rfl

theorem NoIdx.map {α β : Type} {x : Except PyErr α} {f : α → β} (h : NoIdx x) : NoIdx (x.map f) := by
  cases x with
  | error e => intro h'; exact h (by cases e <;> first | rfl | cases h')
  | ok a => intro h'; cases h'

theorem collapseLoop_noIdx {metric : List Cell} {f hi : Nat} : ∀ {fuel : Nat} {d o : List Bool} {s : Nat},
    NoIdx (collapseLoop metric f hi fuel d o s)
  | 0, d, o, s => by unfold collapseLoop; intro h; cases h
  | fuel + 1, d, o, s => by
    unfold collapseLoop
    by_cases h1 : s = 0
    · rw [if_pos h1]; exact NoIdx.ok _
    · rw [if_neg h1]
      by_cases h2 : s < idxminB d s hi
      · rw [if_pos h2]
        cases argmaxCell metric (s - f) (idxminB d s hi - 1 + f) with
        | none => intro h; cases h
        | some j => exact collapseLoop_noIdx
      · rw [if_neg h2]; exact NoIdx.ok _

theorem collapse_noIdx (c : List Bool) (m : List Cell) (f : Nat) : NoIdx (collapse c m f) := by
  unfold collapse
  split_ifs
  · intro h; cases h
  · intro h; cases h
  · exact collapseLoop_noIdx

theorem startEvents_noIdx (zs : List Cell) (p : Prescient) : NoIdx (startEvents zs p) := by
  have ho : NoIdx (ownEvents zs) := by unfold ownEvents; exact NoIdx.map (collapse_noIdx _ _ _)
  cases p with
  | none => exact ho
  | positions l => exact NoIdx.ok _
  | series b =>
    unfold startEvents
    simp only
    split_ifs
    · exact NoIdx.ok _
    · intro h; cases h
    · exact ho

theorem rtsStep_noIdx (pn : ℚ) (k n : KF) : NoIdx (rtsStep pn k n) := by
  unfold rtsStep
  refine NoIdx.bind ?_ fun a _ => NoIdx.ok _
  unfold M2.inv
  split_ifs
  · intro h; cases h
  · exact NoIdx.ok _

theorem rts_noIdx (pn : ℚ) : ∀ l : List KF, NoIdx (rts pn l)
  | [] => NoIdx.ok _
  | [k] => NoIdx.ok _
  | k :: k2 :: l => by
    unfold rts
    refine NoIdx.bind (rts_noIdx pn (k2 :: l)) fun sm _ => ?_
    cases sm with
    | nil => exact NoIdx.ok _
    | cons a sm => exact NoIdx.bind (rtsStep_noIdx _ _ _) fun _ _ => NoIdx.ok _

theorem smoothFrom_noIdx (pn : ℚ) (raw : List KF) : ∀ l : List Nat, NoIdx (smoothFrom pn raw l)
  | [] => NoIdx.ok _
  | [s] => NoIdx.ok _
  | s :: e :: l => by
    unfold smoothFrom
    exact NoIdx.bind (rts_noIdx _ _) fun _ _ => NoIdx.bind (smoothFrom_noIdx pn raw (e :: l)) fun _ _ => NoIdx.ok _

theorem filterPass_noIdx (o : KalmanOpts) (zs : List Cell) (rm7 : List ℚ) (R : ℚ) (fit : TheilFit) (se : List Nat)
    (a b : ℚ) (ce : List Nat) : NoIdx (filterPass o zs rm7 R fit se a b ce) := by
  unfold filterPass smoothResults
  exact NoIdx.map (smoothFrom_noIdx _ _ _)

theorem revise_noIdx (o : KalmanOpts) (st : KalmanState) : NoIdx (revise o st) := by
  unfold revise
  refine NoIdx.bind ?_ fun ce _ => ?_
  · unfold pruneEvents
    split_ifs
    · exact NoIdx.ok _
    · refine NoIdx.map ?_
      unfold numericOutliers
      split_ifs
      · intro h; cases h
      · exact NoIdx.ok _
  · unfold addEvents
    split_ifs
    · exact NoIdx.map (collapse_noIdx _ _ _)
    · exact NoIdx.ok _

theorem pruneLoop_noIdx (o : KalmanOpts) (zs : List Cell) (rm7 : List ℚ) (R : ℚ) (fit : TheilFit) (se : List Nat) :
    ∀ (fuel counter : Nat) (st : KalmanState), NoIdx (pruneLoop o zs rm7 R fit se fuel counter st)
  | 0, counter, st => by
    unfold pruneLoop
    split_ifs
    · intro h; cases h
    · exact NoIdx.ok _
  | fuel + 1, counter, st => by
    unfold pruneLoop
    by_cases h1 : counter < o.pruningIterations
    · rw [if_pos h1]
      refine NoIdx.bind (revise_noIdx o st) fun ce _ => ?_
      by_cases h2 : ce = st.ce
      · rw [if_pos h2]; exact pruneLoop_noIdx o zs rm7 R fit se fuel _ _
      · rw [if_neg h2]
        exact NoIdx.bind (filterPass_noIdx _ _ _ _ _ _ _ _ _) fun p _ => pruneLoop_noIdx o zs rm7 R fit se fuel _ _
    · rw [if_neg h1]; exact NoIdx.ok _

theorem kalmanSR_noIdx (o : KalmanOpts) (fuel : Nat) (zs : List Cell) (pre : Prescient) : NoIdx (kalmanSR o fuel zs pre) := by
  unfold kalmanSR
  refine NoIdx.bind (startEvents_noIdx _ _) fun ce _ => ?_
  simp only
  split
  · intro h; cases h
  · split_ifs
    · exact NoIdx.bind (filterPass_noIdx _ _ _ _ _ _ _ _ _) fun p _ =>
        NoIdx.bind (pruneLoop_noIdx _ _ _ _ _ _ _ _ _) fun st _ => NoIdx.ok _
    · intro h; cases h

/-! ### The decomposition -/

/-- the routines of other packages raise no `IndexError` -/
def Spec.envNoIdx (e : DecompEnv) : Prop :=
  (∀ x, e.stl x ≠ .error .indexError) ∧ (∀ x, e.yoy x ≠ .error .indexError) ∧ ∀ x, e.adf x ≠ .error .indexError

/-- a later iteration finds the result of an earlier soiling fit -/
def HasSR (p : Nat) (st : DecompState) : Prop := p < st.ic → st.df.isSome = true

theorem fitComp_df {e : DecompEnv} {fuel : Nat} {o : DecompOpts} {day0 : Int} {pi : List Cell} {st s : DecompState}
    (h : fitComp e fuel o day0 pi st = .ok s) :
    (st.df.isSome = true → s.df.isSome = true) ∧ (compAt st.order st.ic = some .SR → s.df.isSome = true) := by
  unfold fitComp at h
  cases hc : compAt st.order st.ic with
  | none => rw [hc] at h; cases h
  | some c =>
    rw [hc] at h
    cases c with
    | SR =>
      obtain ⟨a, ha, rfl⟩ := map_ok.mp h
      unfold fitSR at ha
      obtain ⟨p, -, ha⟩ := bind_ok'.mp ha
      obtain ⟨k, -, ha⟩ := bind_ok'.mp ha
      cases ha
      exact ⟨fun _ => rfl, fun _ => rfl⟩
    | SC =>
      obtain ⟨a, ha, rfl⟩ := map_ok.mp h
      unfold fitSC at ha
      obtain ⟨p, -, ha⟩ := bind_ok'.mp ha
      dsimp only at ha
      by_cases ho : o.stl = true
      · rw [if_pos ho] at ha
        obtain ⟨d, -, ha⟩ := bind_ok'.mp ha
        cases ha
        exact ⟨id, fun h => by cases h⟩
      · rw [if_neg ho] at ha
        cases ha
        exact ⟨id, fun h => by cases h⟩
    | Rd =>
      obtain ⟨a, ha, rfl⟩ := map_ok.mp h
      unfold fitRd at ha
      obtain ⟨d, -, ha⟩ := bind_ok'.mp ha
      cases ha
      exact ⟨id, fun h => by cases h⟩

theorem LoopInv.compAt {order : List Comp} {mx : Nat} {st : DecompState} (hn : 0 < order.length) (hI : LoopInv order mx st) :
    ∃ j, j ≤ st.ic ∧ (st.ic < order.length → j = st.ic) ∧ compAt st.order (st.ic + 1) = order[j % order.length]? := by
  cases hI with
  | first l hp ho hl hc hi hd hm =>
    refine ⟨st.ic, le_refl _, fun _ => rfl, ?_⟩
    unfold Cods.compAt
    rw [ho, Nat.add_sub_cancel]
  | second l1 l2 hp ho hl hc1 hc2 hi hk hn1 hle hm =>
    refine ⟨l2.length, by omega, fun h => by omega, ?_⟩
    rw [ho, hi, reorder_compAt hn (by omega)]

theorem fitComp_noIdx {e : DecompEnv} (he : Spec.envNoIdx e) {fuel : Nat} {o : DecompOpts} {day0 : Int} {pi : List Cell}
    {st : DecompState} {order : List Comp} (hn : 0 < order.length) (hI : LoopInv order o.maxIterations st) {p : Nat} (hp : p < 2)
    (hS : HasSR p st) : NoIdx (fitComp e fuel o day0 pi { st with ic := st.ic + 1 }) := by
  obtain ⟨j, -, -, hc⟩ := hI.compAt hn
  obtain ⟨c, hcc⟩ : ∃ c, order[j % order.length]? = some c := ⟨_, List.getElem?_eq_getElem (Nat.mod_lt _ hn)⟩
  rw [hcc] at hc
  unfold fitComp
  simp only
  rw [hc]
  cases c with
  | SR =>
    refine NoIdx.map ?_
    unfold fitSR
    refine NoIdx.bind ?_ fun q _ => NoIdx.bind (kalmanSR_noIdx _ _ _ _) fun _ _ => NoIdx.ok _
    unfold prepareEvents
    by_cases h2 : 2 < st.ic + 1
    · rw [if_pos h2]
      obtain ⟨k, hk⟩ := Option.isSome_iff_exists.mp (hS (by omega))
      simp only [hk]
      exact NoIdx.map (collapse_noIdx _ _ _)
    · rw [if_neg h2]; exact NoIdx.ok _
  | SC =>
    refine NoIdx.map ?_
    unfold fitSC
    refine NoIdx.bind (he.1 _) fun q _ => ?_
    dsimp only
    by_cases ho : o.stl = true
    · rw [if_pos ho]
      exact NoIdx.bind (he.2.1 _) fun _ _ => NoIdx.ok _
    · rw [if_neg ho]; exact NoIdx.ok _
  | Rd =>
    refine NoIdx.map ?_
    unfold fitRd
    exact NoIdx.bind (he.2.1 _) fun _ _ => NoIdx.ok _

theorem hasSR_step {e : DecompEnv} {fuel : Nat} {o : DecompOpts} {day0 : Int} {pi : List Cell} {st s : DecompState}
    {order : List Comp} (hn : 0 < order.length) (hI : LoopInv order o.maxIterations st) {p : Nat}
    (ho : order[p]? = some .SR) (hS : HasSR p st)
    (h : fitComp e fuel o day0 pi { st with ic := st.ic + 1 } = .ok s) : HasSR p (decideNext o (combine e pi s)).1 := by
  obtain ⟨-, -, -, d4, -, -, -, -, d9, -⟩ := decideNext_frame o (combine e pi s)
  unfold HasSR
  rw [d4, d9]
  show p < s.ic → s.df.isSome = true
  intro hlt
  have hic : s.ic = st.ic + 1 := (fitComp_frame h).ic
  obtain ⟨f1, f2⟩ := fitComp_df h
  have hpl := (List.getElem?_eq_some_iff.mp ho).1
  rcases Nat.lt_or_ge p st.ic with h1 | h1
  · exact f1 (hS h1)
  · apply f2
    obtain ⟨j, -, hj2, hc⟩ := hI.compAt hn
    show compAt st.order (st.ic + 1) = some .SR
    rw [hc, hj2 (by omega), Nat.mod_eq_of_lt (by omega), ← ho]
    congr 1
    omega

theorem loop_noIdx {e : DecompEnv} (he : Spec.envNoIdx e) {fuel : Nat} {o : DecompOpts} {day0 : Int} {pi : List Cell}
    {order : List Comp} (hn : 0 < order.length) {p : Nat} (hp : p < 2) (ho : order[p]? = some .SR) :
    ∀ (rem : Nat) {st : DecompState}, LoopInv order o.maxIterations st → HasSR p st →
      NoIdx (decompLoop e fuel o day0 pi rem st) ∧
        ∀ s, decompLoop e fuel o day0 pi rem st = .ok s → HasSR p s
  | 0, st, hI, hS => by
    unfold decompLoop
    refine ⟨NoIdx.ok _, fun s h => ?_⟩
    cases h
    exact hS
  | rem + 1, st, hI, hS => by
    unfold decompLoop
    constructor
    · refine NoIdx.bind (fitComp_noIdx he hn hI hp hS) fun t ht => ?_
      by_cases hs : (decideNext o (combine e pi t)).2 = true
      · rw [if_pos hs]; exact NoIdx.ok _
      · rw [if_neg hs]
        exact (loop_noIdx he hn hp ho rem (step_inv hn hI ht).1 (hasSR_step hn hI ho hS ht)).1
    · intro s h
      obtain ⟨t, ht, h⟩ := bind_ok'.mp h
      have h1 := hasSR_step hn hI ho hS ht
      by_cases hs : (decideNext o (combine e pi t)).2 = true
      · rw [if_pos hs] at h
        cases h
        exact h1
      · rw [if_neg hs] at h
        exact (loop_noIdx he hn hp ho rem (step_inv hn hI ht).1 h1).2 s h

theorem decompose_noIdx {e : DecompEnv} (he : Spec.envNoIdx e) {fuel : Nat} {o : DecompOpts} {day0 : Int} {pi : List Cell}
    {p : Nat} (hp : p < 2) (ho : (effectiveOrder o)[p]? = some .SR) (hm : p < o.maxIterations) :
    NoIdx (decompose e fuel o day0 pi) := by
  have hn : 0 < (effectiveOrder o).length := by
    have := (List.getElem?_eq_some_iff.mp ho).1
    omega
  unfold decompose
  by_cases hs : Comp.SR ∉ effectiveOrder o
  · rw [if_pos hs]; intro h; cases h
  · rw [if_neg hs]
    refine NoIdx.bind (collapse_noIdx _ _ _) fun pce _ => ?_
    have hI := initState_inv (e := e) (pi := pi) (pce := pce) hn
    have hS : HasSR p (initState e o pi pce) := fun h => absurd h (Nat.not_lt_zero p)
    have hl := loop_noIdx he (fuel := fuel) (day0 := day0) (pi := pi) hn hp ho o.maxIterations hI hS
    refine NoIdx.bind hl.1 fun st hst => ?_
    obtain ⟨-, -, hend⟩ := loop_inv hn o.maxIterations hI (by show 0 + _ = _; omega) hst
    have hlt : p < st.ic := by
      rcases hend with h | ⟨-, -, h⟩
      · omega
      · have := (List.getElem?_eq_some_iff.mp ho).1
        omega
    obtain ⟨k, hk⟩ := Option.isSome_iff_exists.mp (hl.2 st hst hlt)
    unfold finishDecomp
    simp only [hk]
    refine NoIdx.bind (he.2.2 _) fun _ _ => NoIdx.bind ?_ fun _ _ => NoIdx.ok _
    unfold smallSignal
    split_ifs
    · intro h; cases h
    · exact NoIdx.ok _

end Verif.Cods
