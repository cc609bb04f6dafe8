import Verif.Model.CodsKalman
import Verif.Lemmas.CodsDetect
import Verif.Lemmas.CodsCollapse
import Mathlib.Tactic.Positivity
import Mathlib.Tactic.FieldSimp
import Mathlib.Tactic.LinearCombination

/-! # Lemmas about the Kalman filter -/

namespace Verif.Cods

open Verif

theorem bind_ok' {α β : Type} {x : Except PyErr α} {f : α → Except PyErr β} {b : β} :
    (x >>= f) = .ok b ↔ ∃ a, x = .ok a ∧ f a = .ok b := by
  cases x with
  | error e => constructor
               · intro h; cases h
               · rintro ⟨a, h, -⟩; cases h
  | ok a => constructor
            · intro h; exact ⟨a, rfl, h⟩
            · rintro ⟨a', h, h'⟩; cases h; exact h'

theorem map_ok {α β : Type} {x : Except PyErr α} {f : α → β} {b : β} :
    x.map f = .ok b ↔ ∃ a, x = .ok a ∧ f a = b := by
  cases x with
  | error e => constructor
               · intro h; cases h
               · rintro ⟨a, h, -⟩; cases h
  | ok a => constructor
            · intro h; cases h; exact ⟨a, rfl, rfl⟩
            · rintro ⟨a', h, rfl⟩; cases h; rfl

/-! ### Covariances -/

/-- symmetric and positive semidefinite -/
def Spec.PSD (m : M2) : Prop := m.b = m.c ∧ ∀ u v : ℚ, 0 ≤ m.a * u ^ 2 + 2 * m.b * u * v + m.d * v ^ 2

/-- symmetric and positive definite -/
def PD (m : M2) : Prop := m.b = m.c ∧ 0 < m.a ∧ 0 < m.d ∧ 0 < m.det

/-- after an update: positive definite, or certain about the level -/
def Inv (m : M2) : Prop := PD m ∨ (m.a = 0 ∧ m.b = 0 ∧ m.c = 0 ∧ 0 < m.d)

theorem PD.psd {m : M2} (h : PD m) : Spec.PSD m := by
  obtain ⟨hs, ha, hd, hdet⟩ := h
  refine ⟨hs, fun u v => ?_⟩
  unfold M2.det at hdet
  rw [← hs] at hdet
  have h1 : m.a * (m.a * u ^ 2 + 2 * m.b * u * v + m.d * v ^ 2) =
      (m.a * u + m.b * v) ^ 2 + (m.a * m.d - m.b * m.b) * v ^ 2 := by ring
  have h2 : 0 ≤ m.a * (m.a * u ^ 2 + 2 * m.b * u * v + m.d * v ^ 2) := by
    rw [h1]; have := hdet.le; positivity
  exact nonneg_of_mul_nonneg_right h2 ha

theorem Inv.psd {m : M2} (h : Inv m) : Spec.PSD m := by
  rcases h with h | ⟨h1, h2, h3, h4⟩
  · exact h.psd
  · refine ⟨by rw [h2, h3], fun u v => ?_⟩
    rw [h1, h2]
    have : 0 ≤ m.d * v ^ 2 := by positivity
    linarith

/-- covariance of the prediction -/
theorem predict_P (pn u : ℚ) (k : KF) : (kPredict pn u k).P = ((kF.mul k.P).mul kF.tr).add (kQ pn) := rfl

theorem predict_PD {pn : ℚ} (hp : pn ≠ 0) {m : M2} (h : Inv m) : PD (((kF.mul m).mul kF.tr).add (kQ pn)) := by
  have hq : 0 < pn ^ 2 := by positivity
  rcases h with ⟨hs, ha, hd, hdet⟩ | ⟨h1, h2, h3, h4⟩
  · have hpsd := (PD.psd ⟨hs, ha, hd, hdet⟩).2
    have f1 := hpsd 1 1
    have f2 := hpsd 1 (1/2)
    unfold M2.det at hdet
    simp only [PD, M2.mul, M2.tr, M2.add, kF, kQ, M2.det]
    rw [← hs] at *
    refine ⟨by ring, by nlinarith, by nlinarith, ?_⟩
    have e : (1 * ((1 * m.a + 1 * m.b) * 1 + (1 * m.b + 1 * m.d) * 1 + pn ^ 2 / 4) : ℚ) = m.a + 2 * m.b + m.d + pn ^ 2 / 4 := by ring
    nlinarith
  · simp only [PD, M2.mul, M2.tr, M2.add, kF, kQ, M2.det]
    rw [h1, h2, h3]
    refine ⟨by ring, by nlinarith, by nlinarith, ?_⟩
    have : 0 < m.d * pn ^ 2 := by positivity
    nlinarith

/-- the covariance after an update, with the Joseph form multiplied out -/
theorem update_P {R z : ℚ} {k : KF} (hS : kS R k ≠ 0) (hs : k.P.b = k.P.c) :
    (kUpdate R z k).P = ⟨k.P.a * R / kS R k, k.P.b * R / kS R k, k.P.c * R / kS R k, k.P.d - k.P.b * k.P.c / kS R k⟩ := by
  unfold kUpdate
  simp only [M2.mul, M2.add, M2.tr, M2.mk.injEq]
  have hS' : k.P.a + R ≠ 0 := hS
  unfold kS
  rw [hs]
  refine ⟨?_, ?_, ?_, ?_⟩ <;> field_simp <;> ring

theorem update_Inv {R z : ℚ} (hR : 0 ≤ R) {k : KF} (h : PD k.P) : Inv (kUpdate R z k).P := by
  obtain ⟨hs, ha, hd, hdet⟩ := h
  have hS : 0 < kS R k := by unfold kS; linarith
  rw [update_P hS.ne' hs]
  have hdd : 0 < k.P.d - k.P.b * k.P.c / kS R k := by
    rw [sub_pos, div_lt_iff₀ hS]
    unfold M2.det at hdet
    unfold kS
    nlinarith
  rcases hR.eq_or_lt with h0 | hpos
  · right
    subst h0
    exact ⟨by simp, by simp, by simp, hdd⟩
  · left
    refine ⟨by simp only; rw [hs], ?_, hdd, ?_⟩
    · simp only; positivity
    · unfold M2.det
      simp only
      have e : k.P.a * R / kS R k * (k.P.d - k.P.b * k.P.c / kS R k) - k.P.b * R / kS R k * (k.P.c * R / kS R k) =
          R * k.P.det / kS R k := by
        unfold M2.det
        have hS' : k.P.a + R ≠ 0 := hS.ne'
        unfold kS
        field_simp
        ring
      rw [e]
      positivity

theorem predictDay_P (pn R : ℚ) (n : Nat) (rm7 : List ℚ) (se : List Nat) (i : Nat) (k : KF) (ce : List Nat) :
    (predictDay pn R n rm7 se i k ce).1.P = ((kF.mul k.P).mul kF.tr).add (kQ pn) := by
  unfold predictDay
  split_ifs <;> rfl

theorem forward_Inv {pn R : ℚ} (hp : pn ≠ 0) (hR : 0 ≤ R) {n : Nat} {rm7 : List ℚ} {se : List Nat} {zs : List Cell} :
    ∀ {i : Nat} {k : KF} {ce : List Nat}, Inv k.P → ∀ s ∈ (forwardFrom pn R n rm7 se i k ce zs).1, Inv s.P := by
  induction zs with
  | nil => intro i k ce _ s hs; cases hs
  | cons z zs ih =>
    intro i k ce hk s hs
    have hpd : PD (predictDay pn R n rm7 se i k ce).1.P := by rw [predictDay_P]; exact predict_PD hp hk
    have hu : Inv (updateDay R (predictDay pn R n rm7 se i k ce).1 z).P := by
      cases z with
      | none => exact .inl hpd
      | some z => exact update_Inv hR hpd
    rcases List.mem_cons.mp hs with rfl | hs
    · exact hu
    · exact ih hu s hs

theorem forward_length (pn R : ℚ) (n : Nat) (rm7 : List ℚ) (se : List Nat) (i : Nat) (k : KF) (ce : List Nat) (zs : List Cell) :
    (forwardFrom pn R n rm7 se i k ce zs).1.length = zs.length := by
  induction zs generalizing i k ce with
  | nil => rfl
  | cons z zs ih =>
    unfold forwardFrom
    simp only [List.length_cons]
    rw [ih]

/-! ### Smoother -/

theorem rts_ok {pn : ℚ} (hp : pn ≠ 0) {l : List KF} (h : ∀ k ∈ l, Inv k.P) : ∃ sm, rts pn l = .ok sm ∧ sm.length = l.length := by
  induction l with
  | nil => exact ⟨[], rfl, rfl⟩
  | cons k l ih =>
    cases l with
    | nil => exact ⟨[k], rfl, rfl⟩
    | cons k2 l =>
      obtain ⟨sm, h1, h2⟩ := ih (fun s hs => h s (List.mem_cons_of_mem _ hs))
      have hdet := (predict_PD hp (h k List.mem_cons_self)).2.2.2
      unfold rts
      rw [h1]
      cases sm with
      | nil => cases h2
      | cons nx sm =>
        have hst : ∃ k', rtsStep pn k nx = .ok k' := by
          unfold rtsStep M2.inv
          simp only [if_neg hdet.ne']
          exact ⟨_, rfl⟩
        obtain ⟨k', hk'⟩ := hst
        refine ⟨k' :: nx :: sm, ?_, by simp at h2 ⊢; omega⟩
        change (rtsStep pn k nx >>= fun k' => Except.ok (k' :: nx :: sm)) = _
        rw [hk']; rfl

theorem smoothFrom_ok {pn : ℚ} (hp : pn ≠ 0) {raw : List KF} (h : ∀ k ∈ raw, Inv k.P) (b : List Nat) :
    ∃ sm, smoothFrom pn raw b = .ok sm := by
  induction b with
  | nil => exact ⟨[], rfl⟩
  | cons s b ih =>
    cases b with
    | nil => exact ⟨_, rfl⟩
    | cons e b =>
      obtain ⟨rest, hr⟩ := ih
      obtain ⟨seg, hs, -⟩ := rts_ok hp (l := (raw.drop s).take (e - s))
        (fun k hk => h k (List.mem_of_mem_drop (List.mem_of_mem_take hk)))
      refine ⟨seg ++ rest, ?_⟩
      unfold smoothFrom
      rw [hs, hr]; rfl

theorem smoothFrom_length {pn : ℚ} {raw : List KF} {b : List Nat} (hb : b.Pairwise (· ≤ ·)) (hle : ∀ s ∈ b, s ≤ raw.length)
    {s0 : Nat} (h0 : b.head? = some s0) {sm : List KF} (h : smoothFrom pn raw b = .ok sm) : sm.length = raw.length - s0 := by
  induction b generalizing s0 sm with
  | nil => cases h0
  | cons s b ih =>
    cases h0
    cases b with
    | nil => cases h; rw [List.length_drop]
    | cons e b =>
      unfold smoothFrom at h
      obtain ⟨seg, h1, h⟩ := bind_ok'.mp h
      obtain ⟨rest, h2, h⟩ := bind_ok'.mp h
      cases h
      have hrest := ih (List.pairwise_cons.mp hb).2 (fun s hs => hle s (List.mem_cons_of_mem _ hs)) rfl h2
      have hse : s ≤ e := (List.pairwise_cons.mp hb).1 e List.mem_cons_self
      have he : e ≤ raw.length := hle e (by simp)
      have hl : ∀ {l : List KF} {sm : List KF}, rts pn l = .ok sm → sm.length = l.length := by
        intro l
        induction l with
        | nil => intro sm h; cases h; rfl
        | cons k l ihl =>
          intro sm h
          cases l with
          | nil => cases h; rfl
          | cons k2 l =>
            unfold rts at h
            obtain ⟨m, hm, h⟩ := bind_ok'.mp h
            have := ihl hm
            cases m with
            | nil => cases this
            | cons nx m =>
              obtain ⟨k', -, h⟩ := bind_ok'.mp h
              cases h
              simp at this ⊢; omega
      rw [List.length_append, hl h1, hrest, List.length_take, List.length_drop]
      omega

/-! ### The whole step -/

theorem finishPass_smooth (o : KalmanOpts) (st : KalmanState) : (finishPass o st).smooth = st.smooth := by
  unfold finishPass; split_ifs <;> rfl

theorem finishPass_ce (o : KalmanOpts) (st : KalmanState) : (finishPass o st).ce = st.ce := by
  unfold finishPass; split_ifs <;> rfl

theorem finishPass_std (o : KalmanOpts) (st : KalmanState) :
    (finishPass o st).zsStd = st.zsStd ∧ (finishPass o st).rateStd = st.rateStd := by
  unfold finishPass; split_ifs <;> exact ⟨rfl, rfl⟩

/-- the columns at the end are those of the last pass -/
structure Finished (o : KalmanOpts) (init st : KalmanState) : Prop where
  ratio : st.ratio = if o.clip then clipUpper (ratioOf o st.smooth st.ce) else ratioOf o st.smooth st.ce
  rates : st.rates = if o.clip then clippedRates st.ratio (st.smooth.map fun k => k.s.r) else init.rates

theorem finishPass_finished (o : KalmanOpts) (init st : KalmanState) (h : o.clip = false → st.rates = init.rates) :
    Finished o init (finishPass o st) := by
  unfold finishPass
  cases hc : o.clip with
  | true =>
    rw [if_pos rfl]
    refine ⟨?_, ?_⟩
    · rw [if_pos hc]
    · rw [if_pos hc]
  | false =>
    rw [if_neg (by simp)]
    refine ⟨?_, ?_⟩
    · rw [if_neg (by simp [hc])]
    · rw [if_neg (by simp [hc])]; exact h hc

theorem finishPass_rates (o : KalmanOpts) (st : KalmanState) (h : o.clip = false) : (finishPass o st).rates = st.rates := by
  unfold finishPass; rw [h, if_neg (by simp)]

theorem pruneLoop_final {o : KalmanOpts} {zs : List Cell} {rm7 : List ℚ} {R : ℚ} {fit : TheilFit} {se : List Nat}
    {init : KalmanState} :
    ∀ {fuel counter : Nat} {st st' : KalmanState}, (o.clip = false → st.rates = init.rates) →
      pruneLoop o zs rm7 R fit se fuel counter st = .ok st' →
      (st' = st ∧ o.pruningIterations ≤ counter) ∨ Finished o init st' := by
  intro fuel
  induction fuel with
  | zero =>
    intro counter st st' _ h
    unfold pruneLoop at h
    split_ifs at h with hc
    cases h
    exact .inl ⟨rfl, by omega⟩
  | succ fuel ih =>
    intro counter st st' hr h
    unfold pruneLoop at h
    by_cases hc : counter < o.pruningIterations
    · rw [if_pos hc] at h
      obtain ⟨ce, -, h⟩ := bind_ok'.mp h
      by_cases he : ce = st.ce
      · rw [if_pos he] at h
        rcases ih (fun hcl => by rw [finishPass_rates o _ hcl]; exact hr hcl) h with ⟨rfl, -⟩ | hf
        · exact .inr (finishPass_finished o init st hr)
        · exact .inr hf
      · rw [if_neg he] at h
        obtain ⟨p, -, h⟩ := bind_ok'.mp h
        rcases ih (fun hcl => by rw [finishPass_rates o _ hcl]; exact hr hcl) h with ⟨rfl, -⟩ | hf
        · exact .inr (finishPass_finished o init _ hr)
        · exact .inr hf
    · rw [if_neg hc] at h
      cases h
      exact .inl ⟨rfl, by omega⟩

/-- what a successful call consists of -/
theorem kalmanSR_ok {o : KalmanOpts} {fuel : Nat} {zs : List Cell} {pre : Prescient} {out : KalmanOut}
    (h : kalmanSR o fuel zs pre = .ok out) :
    ∃ ce R p st, startEvents zs pre = .ok ce ∧
      cellVar ((List.range zs.length).map fun i =>
        cellOp (fun a b => a - b) (cellAt (rollFilled o.fwd 13 zs) i) (cellAt zs i)) = some R ∧
      filterPass o zs (valids (rollFilled o.fwd 7 zs)) R (initialFit zs) (truePos (soilingEvents o.fwd 5 zs)) o.zsStd
        o.rateStd ce = .ok p ∧
      pruneLoop o zs (valids (rollFilled o.fwd 7 zs)) R (initialFit zs) (truePos (soilingEvents o.fwd 5 zs)) fuel 0
        ⟨p.1, p.2.1, zs.map fun _ => none, zs.map fun _ => none, p.2.2.1, p.2.2.2⟩ = .ok st ∧
      out = kalmanOut zs.length st ∧
      (rollFilled o.fwd 7 zs).all Option.isSome = true ∧ ((bfill zs).take 14).all Option.isSome = true := by
  unfold kalmanSR at h
  obtain ⟨ce, h1, h⟩ := bind_ok'.mp h
  cases hv : cellVar ((List.range zs.length).map fun i =>
      cellOp (fun a b => a - b) (cellAt (rollFilled o.fwd 13 zs) i) (cellAt zs i)) with
  | none => simp only [hv] at h; cases h
  | some R =>
    simp only [hv] at h
    split_ifs at h with hc
    obtain ⟨p, h2, h⟩ := bind_ok'.mp h
    obtain ⟨st, h3, h⟩ := bind_ok'.mp h
    cases h
    rw [Bool.and_eq_true] at hc
    exact ⟨ce, R, p, st, h1, rfl, h2, h3, rfl, hc.1, hc.2⟩

/-- the columns of a successful call -/
theorem kalmanSR_columns {o : KalmanOpts} {fuel : Nat} {zs : List Cell} {pre : Prescient} {out : KalmanOut}
    (h : kalmanSR o fuel zs pre = .ok out) :
    ∃ st : KalmanState, out = kalmanOut zs.length st ∧
      ((o.pruningIterations = 0 ∧ st.ratio = (zs.map fun _ => none) ∧ st.rates = (zs.map fun _ => none)) ∨
        (st.ratio = (if o.clip then clipUpper (ratioOf o st.smooth st.ce) else ratioOf o st.smooth st.ce) ∧
          st.rates = if o.clip then clippedRates st.ratio (st.smooth.map fun k => k.s.r) else zs.map fun _ => none)) := by
  obtain ⟨ce, R, p, st, -, -, -, h4, rfl, -⟩ := kalmanSR_ok h
  refine ⟨st, rfl, ?_⟩
  rcases pruneLoop_final (init := ⟨p.1, p.2.1, zs.map fun _ => none, zs.map fun _ => none, p.2.2.1, p.2.2.2⟩)
    (fun _ => rfl) h4 with ⟨rfl, h⟩ | hf
  · exact .inl ⟨by omega, rfl, rfl⟩
  · exact .inr ⟨hf.ratio, hf.rates⟩

end Verif.Cods
