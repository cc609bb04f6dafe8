import Verif.Lemmas.CodsInv
import Mathlib.Order.Interval.Set.UnorderedInterval
import Mathlib.Data.List.Chain

/-! # Property C64: the Kalman filter is a consistent estimator -/

namespace Verif.Cods

open Verif

/-! ## Forward pass -/

theorem forward_step {pn R : ℚ} {n : Nat} {rm7 : List ℚ} {se : List Nat} {zs : List Cell} :
    ∀ {i : Nat} {k : KF} {ce : List Nat} {j : Nat} {a b : KF},
      (forwardFrom pn R n rm7 se i k ce zs).1[j]? = some a → (forwardFrom pn R n rm7 se i k ce zs).1[j + 1]? = some b →
      ∃ ce' z, zs[j + 1]? = some z ∧ b = updateDay R (predictDay pn R n rm7 se (i + j + 1) a ce').1 z := by
  induction zs with
  | nil => intro i k ce j a b h; cases h
  | cons z zs ih =>
    intro i k ce j a b ha hb
    unfold forwardFrom at ha hb
    cases j with
    | zero =>
      simp only [List.getElem?_cons_zero, Option.some.injEq] at ha
      simp only [List.getElem?_cons_succ] at hb
      rw [ha] at hb
      cases zs with
      | nil => cases hb
      | cons z2 zs =>
        unfold forwardFrom at hb
        simp only [List.getElem?_cons_zero, Option.some.injEq] at hb
        exact ⟨_, z2, rfl, hb.symm⟩
    | succ j =>
      simp only [List.getElem?_cons_succ] at ha hb
      obtain ⟨ce', z', h1, h2⟩ := ih ha hb
      refine ⟨ce', z', h1, ?_⟩
      rw [h2]
      congr 3
      omega

theorem qAt_window (l : List ℚ) {i k : Nat} (hk : k < 11) (hi : 5 ≤ i) : qAt ((l.drop (i - 5)).take 11) k = qAt l (i - 5 + k) := by
  unfold qAt
  rw [List.getD_eq_getElem?_getD, List.getD_eq_getElem?_getD, List.getElem?_take_of_lt hk, List.getElem?_drop]

/-- the predicted level is the extrapolation, or on an event day the median of the following week -/
theorem predictDay_x (pn R : ℚ) (n : Nat) (rm7 : List ℚ) (se : List Nat) (i : Nat) (k : KF) (ce : List Nat) :
    (predictDay pn R n rm7 se i k ce).1.s.r = k.s.r ∧
    ((predictDay pn R n rm7 se i k ce).1.s.x = k.s.x + k.s.r ∨
      (7 < i ∧ i + 7 < n ∧ (predictDay pn R n rm7 se i k ce).1.s.x = qAt rm7 (i + 3) ∧
        R < 4 * (qAt rm7 (i + 3) - (k.s.x + k.s.r)) ^ 2)) := by
  unfold predictDay
  by_cases hc : controlled n i ce se
  · rw [if_pos hc]
    have hc := of_decide_eq_true hc
    refine ⟨by simp [kPredict, V2.add, M2.app, kF], ?_⟩
    have e8 : qAt ((rm7.drop (i - 5)).take 11) 8 = qAt rm7 (i + 3) := by
      rw [qAt_window rm7 (by omega) (by omega)]; congr 1; omega
    unfold setControl
    simp only [e8]
    split_ifs with h1 h2
    · right
      refine ⟨hc.1, hc.2.1, ?_, h2⟩
      simp only [kPredict, V2.add, M2.app, kF]; ring
    all_goals left; simp [kPredict, V2.add, M2.app, kF]
  · rw [if_neg hc]
    exact ⟨by simp [kPredict, V2.add, M2.app, kF], .inl (by simp [kPredict, V2.add, M2.app, kF])⟩

/-- update: the level moves towards the measurement, but not beyond it -/
theorem kUpdate_between {R z : ℚ} (hR : 0 ≤ R) {k : KF} (h : 0 < k.P.a) : (kUpdate R z k).s.x ∈ Set.uIcc k.s.x z := by
  have hS : 0 < k.P.a + R := by linarith
  have hg0 : 0 ≤ k.P.a / (k.P.a + R) := by positivity
  have hg1 : k.P.a / (k.P.a + R) ≤ 1 := by rw [div_le_one hS]; linarith
  unfold kUpdate kS
  simp only [V2.add]
  generalize k.P.a / (k.P.a + R) = g at *
  rcases le_total k.s.x z with hz | hz
  · rw [Set.uIcc_of_le hz]
    constructor <;> nlinarith
  · rw [Set.uIcc_of_ge hz]
    constructor <;> nlinarith

/-- what is known before the first day -/
theorem initKF_Inv {fit : TheilFit} {a b : ℚ} (hb : b ≠ 0) : Inv (initKF fit a b).P := by
  unfold initKF Inv PD M2.det
  simp only
  by_cases ha : a = 0
  · right; subst ha; refine ⟨by ring, ?_, ?_, by positivity⟩ <;> trivial
  · left; refine ⟨?_, by positivity, by positivity, by ring_nf; positivity⟩; trivial

/-- the unsmoothed estimates (`raw_pi`, `raw_rates`) and covariances of a call -/
def Spec.raw (o : KalmanOpts) (zs : List Cell) (rm7 : List ℚ) (R : ℚ) (fit : TheilFit) (se ce : List Nat) : List KF :=
  (forwardFrom o.processNoise R zs.length rm7 se 0 (initKF fit o.zsStd o.rateStd) ce zs).1

/-- the filtered level of a day lies between the measured value and the predicted level, which is the continued trend of the
day before or, on a significant event, the median of the week that follows; without a measurement it is the predicted level -/
theorem C64_level {o : KalmanOpts} (hp : o.processNoise ≠ 0) (hr : o.rateStd ≠ 0) {R : ℚ} (hR : 0 ≤ R) {zs : List Cell}
    {rm7 : List ℚ} {fit : TheilFit} {se ce : List Nat} {j : Nat} {a b : KF}
    (ha : (Spec.raw o zs rm7 R fit se ce)[j]? = some a) (hb : (Spec.raw o zs rm7 R fit se ce)[j + 1]? = some b) :
    ∃ pr, (pr = a.s.x + a.s.r ∨ (7 < j + 1 ∧ j + 8 < zs.length ∧ pr = qAt rm7 (j + 4) ∧ R < 4 * (pr - (a.s.x + a.s.r)) ^ 2)) ∧
      (cellAt zs (j + 1) = none → b.s.x = pr ∧ b.s.r = a.s.r) ∧
      ∀ z, cellAt zs (j + 1) = some z → b.s.x ∈ Set.uIcc pr z := by
  obtain ⟨ce', z, hz, rfl⟩ := forward_step ha hb
  have hI : Inv a.P := forward_Inv hp hR (initKF_Inv hr) a (List.mem_of_getElem? ha)
  have hpd := predict_PD hp hI
  rw [← predictDay_P o.processNoise R zs.length rm7 se (0 + j + 1) a ce'] at hpd
  have hx := predictDay_x o.processNoise R zs.length rm7 se (0 + j + 1) a ce'
  refine ⟨(predictDay o.processNoise R zs.length rm7 se (0 + j + 1) a ce').1.s.x, ?_, ?_, ?_⟩
  · rcases hx.2 with h | ⟨h1, h2, h3, h4⟩
    · exact .inl h
    · refine .inr ⟨by omega, by omega, ?_, ?_⟩
      · rw [h3]; congr 1; omega
      · rw [h3]; exact h4
  · intro hn
    have : z = none := by
      unfold cellAt at hn; rw [hz] at hn; exact hn
    rw [this]
    exact ⟨rfl, hx.1⟩
  · intro v hv
    have : z = some v := by
      unfold cellAt at hv; rw [hz] at hv; exact hv
    rw [this]
    exact kUpdate_between hR hpd.2.1

/-- four days, one of them without a measurement -/
def exampleDays : List Cell := [some 1, some (99/100), none, some (98/100)]

/-- the filter has a state on each of the four days, and the measured day 1 moves the level off the trend -/
example : (Spec.raw {} exampleDays [1, 1, 1, 1] (1/10000) ⟨0, 1, 0, 0⟩ [] []).length = 4 ∧
    cellAt exampleDays 1 = some (99/100) ∧ cellAt exampleDays 2 = none ∧
    ((Spec.raw {} exampleDays [1, 1, 1, 1] (1/10000) ⟨0, 1, 0, 0⟩ [] [])[1]?.map fun k => decide (99/100 < k.s.x ∧ k.s.x < 1)) =
      some true := by
  decide +kernel

/-- every covariance of the filter is symmetric and positive semidefinite -/
theorem C64_covariance {o : KalmanOpts} (hp : o.processNoise ≠ 0) (hr : o.rateStd ≠ 0) {R : ℚ} (hR : 0 ≤ R) {zs : List Cell}
    {rm7 : List ℚ} {fit : TheilFit} {se ce : List Nat} : ∀ k ∈ Spec.raw o zs rm7 R fit se ce, Spec.PSD k.P :=
  fun k hk => (forward_Inv hp hR (initKF_Inv hr) k hk).psd

/-! ## Smoother -/

/-- `m ≤ n` as covariances -/
def Spec.leM (m n : M2) : Prop := Spec.PSD (n.sub m)

theorem leM_refl (m : M2) : Spec.leM m m := by
  refine ⟨by simp [M2.sub], fun u v => ?_⟩
  simp [M2.sub]

theorem leM_trans {a b c : M2} (h1 : Spec.leM a b) (h2 : Spec.leM b c) : Spec.leM a c := by
  obtain ⟨s1, q1⟩ := h1
  obtain ⟨s2, q2⟩ := h2
  simp only [M2.sub] at s1 s2 q1 q2
  refine ⟨by simp only [M2.sub]; linarith, fun u v => ?_⟩
  simp only [M2.sub]
  have := q1 u v
  have := q2 u v
  nlinarith

/-- an update never increases the covariance -/
theorem update_le {R z : ℚ} (hR : 0 ≤ R) {k : KF} (h : PD k.P) : Spec.leM (kUpdate R z k).P k.P := by
  obtain ⟨hs, ha, hd, hdet⟩ := h
  have hS : 0 < kS R k := by unfold kS; linarith
  rw [update_P hS.ne' hs]
  have hS' : 0 < k.P.a + R := hS
  refine ⟨?_, fun u v => ?_⟩
  · simp only [M2.sub]; rw [hs]
  · simp only [M2.sub]
    have e : (k.P.a - k.P.a * R / kS R k) * u ^ 2 + 2 * (k.P.b - k.P.b * R / kS R k) * u * v +
        (k.P.d - (k.P.d - k.P.b * k.P.c / kS R k)) * v ^ 2 = (k.P.a * u + k.P.b * v) ^ 2 / kS R k := by
      unfold kS
      rw [← hs]
      field_simp
      ring
    rw [e]
    positivity

/-- covariance predicted from a state -/
def predP (pn : ℚ) (m : M2) : M2 := ((kF.mul m).mul kF.tr).add (kQ pn)

/-- consecutive days: the covariance is at most the predicted one -/
def Linked (pn : ℚ) (a b : KF) : Prop := Spec.leM b.P (predP pn a.P)

theorem forward_chain {pn R : ℚ} (hp : pn ≠ 0) (hR : 0 ≤ R) {n : Nat} {rm7 : List ℚ} {se : List Nat} {zs : List Cell} {i : Nat}
    {k : KF} {ce : List Nat} (hk : Inv k.P) : (forwardFrom pn R n rm7 se i k ce zs).1.IsChain (Linked pn) := by
  rw [List.isChain_iff_getElem]
  intro j hj
  have h1 : (forwardFrom pn R n rm7 se i k ce zs).1[j]? = some (forwardFrom pn R n rm7 se i k ce zs).1[j] :=
    List.getElem?_eq_getElem _
  have h2 : (forwardFrom pn R n rm7 se i k ce zs).1[j + 1]? = some (forwardFrom pn R n rm7 se i k ce zs).1[j + 1] :=
    List.getElem?_eq_getElem _
  obtain ⟨ce', z, -, e⟩ := forward_step h1 h2
  rw [e]
  have hI := forward_Inv hp hR hk _ (List.mem_of_getElem? h1)
  have hpd := predict_PD hp hI
  unfold Linked
  have eP := predictDay_P pn R n rm7 se (i + j + 1) (forwardFrom pn R n rm7 se i k ce zs).1[j] ce'
  cases z with
  | none =>
    unfold updateDay
    rw [eP]; exact leM_refl _
  | some z =>
    unfold updateDay
    have := update_le (z := z) hR (k := (predictDay pn R n rm7 se (i + j + 1) (forwardFrom pn R n rm7 se i k ce zs).1[j] ce').1)
      (by rw [eP]; exact hpd)
    rw [eP] at this
    exact this

/-- congruence -/
theorem psd_congr {m : M2} (h : Spec.PSD m) (g : M2) : Spec.PSD ((g.mul m).mul g.tr) := by
  obtain ⟨hs, hq⟩ := h
  refine ⟨?_, fun u v => ?_⟩
  · simp only [M2.mul, M2.tr]; rw [hs]; ring
  · have := hq (g.a * u + g.c * v) (g.b * u + g.d * v)
    simp only [M2.mul, M2.tr]
    rw [← hs]
    refine this.trans (le_of_eq ?_)
    ring

theorem psd_add {m n : M2} (h : Spec.PSD m) (h' : Spec.PSD n) : Spec.PSD (m.add n) := by
  obtain ⟨hs, hq⟩ := h
  obtain ⟨hs', hq'⟩ := h'
  refine ⟨by simp only [M2.add]; rw [hs, hs'], fun u v => ?_⟩
  simp only [M2.add]
  have := hq u v
  have := hq' u v
  nlinarith

/-- the gain of the smoother -/
def rtsGain (pn : ℚ) (m : M2) : M2 :=
  (m.mul kF.tr).mul ⟨(predP pn m).d / (predP pn m).det, -(predP pn m).b / (predP pn m).det, -(predP pn m).c / (predP pn m).det,
    (predP pn m).a / (predP pn m).det⟩

theorem rtsStep_eq {pn : ℚ} {k next : KF} (hd : (predP pn k.P).det ≠ 0) :
    rtsStep pn k next = .ok ⟨k.s.add ((rtsGain pn k.P).app (next.s.sub (kF.app k.s))),
      k.P.add (((rtsGain pn k.P).mul (next.P.sub (predP pn k.P))).mul (rtsGain pn k.P).tr)⟩ := by
  unfold rtsStep M2.inv
  have hd' : ¬ (((kF.mul k.P).mul kF.tr).add (kQ pn)).det = 0 := hd
  simp only [if_neg hd']
  rfl

/-- the part of the smoothed covariance that does not depend on the next day -/
theorem rts_base {pn : ℚ} {m : M2} (hs : m.b = m.c) (hd : (predP pn m).det ≠ 0) :
    m.sub (((rtsGain pn m).mul (predP pn m)).mul (rtsGain pn m).tr) =
      ((M2.mk 1 (-1) 0 1).mul
        ⟨pn ^ 2 / 4 * (m.det / (predP pn m).det), pn ^ 2 / 2 * (m.det / (predP pn m).det),
         pn ^ 2 / 2 * (m.det / (predP pn m).det), pn ^ 2 * (m.det / (predP pn m).det)⟩).mul (M2.mk 1 (-1) 0 1).tr := by
  have hP : predP pn m = ⟨m.a + 2 * m.b + m.d + pn ^ 2 / 4, m.b + m.d + pn ^ 2 / 2, m.b + m.d + pn ^ 2 / 2, m.d + pn ^ 2⟩ := by
    unfold predP
    simp only [M2.mul, M2.tr, M2.add, kF, kQ, M2.mk.injEq]
    rw [← hs]
    refine ⟨by ring, by ring, by ring, by ring⟩
  have hD : (predP pn m).det = (m.a + 2 * m.b + m.d + pn ^ 2 / 4) * (m.d + pn ^ 2) - (m.b + m.d + pn ^ 2 / 2) ^ 2 := by
    rw [hP]; simp only [M2.det]; ring
  unfold rtsGain
  generalize (predP pn m).det = E at hd hD ⊢
  rw [hP]
  simp only [M2.mul, M2.tr, M2.sub, kF, M2.det, M2.mk.injEq]
  rw [← hs]
  refine ⟨?_, ?_, ?_, ?_⟩ <;> field_simp <;> rw [hD] <;> ring

theorem rtsStep_psd {pn : ℚ} (hp : pn ≠ 0) {k next k' : KF} (hk : Inv k.P) (hn : Spec.PSD next.P)
    (hl : Spec.leM next.P (predP pn k.P)) (h : rtsStep pn k next = .ok k') : Spec.PSD k'.P ∧ Spec.leM k'.P k.P := by
  have hpd : PD (predP pn k.P) := predict_PD hp hk
  have hd := hpd.2.2.2
  rw [rtsStep_eq hd.ne'] at h
  cases h
  have hs := hk.psd.1
  constructor
  · have e : k.P.add (((rtsGain pn k.P).mul (next.P.sub (predP pn k.P))).mul (rtsGain pn k.P).tr) =
        (k.P.sub (((rtsGain pn k.P).mul (predP pn k.P)).mul (rtsGain pn k.P).tr)).add
          (((rtsGain pn k.P).mul next.P).mul (rtsGain pn k.P).tr) := by
      simp only [M2.mul, M2.tr, M2.sub, M2.add, M2.mk.injEq]
      refine ⟨?_, ?_, ?_, ?_⟩ <;> ring
    simp only
    rw [e]
    refine psd_add ?_ (psd_congr hn _)
    rw [rts_base hs hd.ne']
    apply psd_congr
    have hdet : 0 ≤ k.P.det := by
      rcases hk with hk | ⟨h1, h2, -, -⟩
      · exact hk.2.2.2.le
      · unfold M2.det; rw [h1, h2]; simp
    have hc : 0 ≤ k.P.det / (predP pn k.P).det := by positivity
    refine ⟨rfl, fun u v => ?_⟩
    simp only
    have : pn ^ 2 / 4 * (k.P.det / (predP pn k.P).det) * u ^ 2 + 2 * (pn ^ 2 / 2 * (k.P.det / (predP pn k.P).det)) * u * v +
        pn ^ 2 * (k.P.det / (predP pn k.P).det) * v ^ 2 = (k.P.det / (predP pn k.P).det) * (pn * (u / 2 + v)) ^ 2 := by ring
    rw [this]
    positivity
  · unfold Spec.leM
    have e : k.P.sub (k.P.add (((rtsGain pn k.P).mul (next.P.sub (predP pn k.P))).mul (rtsGain pn k.P).tr)) =
        ((rtsGain pn k.P).mul ((predP pn k.P).sub next.P)).mul (rtsGain pn k.P).tr := by
      simp only [M2.mul, M2.tr, M2.sub, M2.add, M2.mk.injEq]
      refine ⟨?_, ?_, ?_, ?_⟩ <;> ring
    simp only
    rw [e]
    exact psd_congr hl _

theorem rts_psd {pn : ℚ} (hp : pn ≠ 0) {l : List KF} (hI : ∀ k ∈ l, Inv k.P) (hc : l.IsChain (Linked pn)) {sm : List KF}
    (h : rts pn l = .ok sm) : List.Forall₂ (fun k s => Spec.PSD s.P ∧ Spec.leM s.P k.P) l sm := by
  induction l generalizing sm with
  | nil => cases h; exact .nil
  | cons k l ih =>
    cases l with
    | nil => cases h; exact .cons ⟨(hI k (by simp)).psd, leM_refl _⟩ .nil
    | cons k2 l =>
      unfold rts at h
      obtain ⟨m, hm, h⟩ := bind_ok'.mp h
      have hf := ih (fun s hs => hI s (List.mem_cons_of_mem _ hs)) hc.tail hm
      cases hf with
      | @cons _ nx _ ms h1 h2 =>
        simp only at h
        obtain ⟨k', hk', h⟩ := bind_ok'.mp h
        cases h
        have hl : Linked pn k k2 := by
          rw [List.isChain_cons_cons] at hc
          exact hc.1
        exact .cons (rtsStep_psd hp (hI k (by simp)) h1.1 (leM_trans h1.2 hl) hk') (.cons h1 h2)

theorem forall₂_append' {α β : Type} {r : α → β → Prop} {a c : List α} {b d : List β} (h : List.Forall₂ r a b)
    (h' : List.Forall₂ r c d) : List.Forall₂ r (a ++ c) (b ++ d) := by
  induction h with
  | nil => exact h'
  | cons hx _ ih => exact .cons hx ih

theorem drop_split {α : Type} (l : List α) {s e : Nat} (h : s ≤ e) : l.drop s = (l.drop s).take (e - s) ++ l.drop e := by
  conv_lhs => rw [← List.take_append_drop (e - s) (l.drop s), List.drop_drop]
  congr 2; omega

theorem smoothFrom_psd {pn : ℚ} (hp : pn ≠ 0) {raw : List KF} (hI : ∀ k ∈ raw, Inv k.P) (hc : raw.IsChain (Linked pn))
    {b : List Nat} (hb : b.Pairwise (· ≤ ·)) {s0 : Nat} (h0 : b.head? = some s0) {sm : List KF}
    (h : smoothFrom pn raw b = .ok sm) :
    List.Forall₂ (fun k s => Spec.PSD s.P ∧ Spec.leM s.P k.P) (raw.drop s0) sm := by
  induction b generalizing s0 sm with
  | nil => cases h0
  | cons s b ih =>
    cases h0
    cases b with
    | nil =>
      cases h
      rw [List.forall₂_same]
      exact fun k hk => ⟨(hI k (List.mem_of_mem_drop hk)).psd, leM_refl _⟩
    | cons e b =>
      unfold smoothFrom at h
      obtain ⟨seg, h1, h⟩ := bind_ok'.mp h
      obtain ⟨rest, h2, h⟩ := bind_ok'.mp h
      cases h
      have hse : s ≤ e := (List.pairwise_cons.mp hb).1 e List.mem_cons_self
      rw [drop_split raw hse]
      exact forall₂_append'
        (rts_psd hp (fun k hk => hI k (List.mem_of_mem_drop (List.mem_of_mem_take hk))) ((hc.drop s).take _) h1)
        (ih (List.pairwise_cons.mp hb).2 rfl h2)

/-- smoothing keeps the covariance of every day symmetric and positive semidefinite, and never increases it -/
theorem C64_smoothed_covariance {o : KalmanOpts} (hp : o.processNoise ≠ 0) (hr : o.rateStd ≠ 0) {R : ℚ} (hR : 0 ≤ R)
    {zs : List Cell} {rm7 : List ℚ} {fit : TheilFit} {se ce ce' : List Nat} {sm : List KF}
    (h : smoothResults o.processNoise (Spec.raw o zs rm7 R fit se ce) ce' se = .ok sm) {i : Nat} {k s : KF}
    (hk : (Spec.raw o zs rm7 R fit se ce)[i]? = some k) (hs : sm[i]? = some s) : Spec.PSD s.P ∧ Spec.leM s.P k.P := by
  have hf := smoothFrom_psd hp (forward_Inv hp hR (initKF_Inv hr)) (forward_chain hp hR (initKF_Inv hr)) (borders_sorted _ _ _)
    (borders_head _ ce' se) h
  rw [List.drop_zero] at hf
  obtain ⟨h1, h2⟩ := List.getElem?_eq_some_iff.mp hk
  obtain ⟨h3, h4⟩ := List.getElem?_eq_some_iff.mp hs
  rw [List.forall₂_iff_get] at hf
  have := hf.2 i h1 h3
  simp only [List.get_eq_getElem] at this
  rw [← h2, ← h4]
  exact this

/-- the smoother never meets a singular matrix -/
theorem C64_smoother_succeeds {o : KalmanOpts} (hp : o.processNoise ≠ 0) (hr : o.rateStd ≠ 0) {R : ℚ} (hR : 0 ≤ R)
    (zs : List Cell) (rm7 : List ℚ) (fit : TheilFit) (se ce ce' : List Nat) :
    ∃ sm, smoothResults o.processNoise (Spec.raw o zs rm7 R fit se ce) ce' se = .ok sm :=
  smoothFrom_ok hp (forward_Inv hp hR (initKF_Inv hr)) _

end Verif.Cods
