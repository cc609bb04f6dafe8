import Verif.Props.CodsKalman

/-! # Constant signals and success of the Kalman filter -/

namespace Verif.Cods

open Verif

theorem mem_valids {x : List Cell} {v : ℚ} : v ∈ valids x ↔ some v ∈ x := by
  unfold valids
  rw [List.mem_filterMap]
  constructor
  · rintro ⟨a, h, e⟩; rw [id] at e; rwa [← e]
  · exact fun h => ⟨some v, h, rfl⟩

theorem valids_length_all {x : List Cell} (h : x.all Option.isSome = true) : (valids x).length = x.length := by
  unfold valids
  induction x with
  | nil => rfl
  | cons c l ih =>
    rw [List.all_cons, Bool.and_eq_true] at h
    cases c with
    | none => cases h.1
    | some v =>
      have := ih h.2
      change (v :: List.filterMap id l).length = _
      rw [List.length_cons, List.length_cons, this]

theorem rollFilled_length (fwd : Bool) (w : Nat) (zs : List Cell) : (rollFilled fwd w zs).length = zs.length := by
  unfold rollFilled
  rw [bfill_length, ffill, ffillFrom_length, filledMedian, rollMedianC, List.length_map, List.length_range]
  split_ifs
  · exact ffillFrom_length _ _
  · exact bfill_length _

theorem rollFilled_const {c : ℚ} {zs : List Cell} (h : ∀ v, some v ∈ zs → v = c) (fwd : Bool) (w : Nat) :
    ∀ v, some v ∈ rollFilled fwd w zs → v = c :=
  bfill_const (ffillFrom_const (p := none) (by simp) (filledMedian_const fwd w h))

theorem median_getD_const {l : List ℚ} {c : ℚ} (h : ∀ v ∈ l, v = c) (hne : l ≠ []) : (median l).getD 0 = c := by
  cases hm : median l with
  | none => have := median_isSome.mpr hne; rw [hm] at this; cases this
  | some m => exact median_const hm h

theorem theil_const {zs : List (ℚ × ℚ) → ℚ} {pts : List (ℚ × ℚ)} {c : ℚ} (h : ∀ p ∈ pts, p.2 = c)
    (h2 : ∃ p ∈ pts, ∃ q ∈ pts, p.1 < q.1) : (theil zs pts).slope = 0 ∧ (theil zs pts).intercept = c := by
  have hs : ∀ v ∈ pairSlopes pts, v = 0 := by
    intro v hv
    unfold pairSlopes at hv
    obtain ⟨p, hp, hv⟩ := List.mem_flatMap.mp hv
    obtain ⟨q, hq, e⟩ := List.mem_filterMap.mp hv
    split_ifs at e
    cases e
    rw [h p hp, h q hq]; simp
  have hne : pairSlopes pts ≠ [] := by
    obtain ⟨q, hq, p, hp, hlt⟩ := h2
    intro he
    have : (p.2 - q.2) / (p.1 - q.1) ∈ pairSlopes pts := by
      unfold pairSlopes
      refine List.mem_flatMap.mpr ⟨p, hp, List.mem_filterMap.mpr ⟨q, hq, by rw [if_pos hlt]⟩⟩
    rw [he] at this; cases this
  have hso : sortQ (pairSlopes pts) ≠ [] := by
    intro he
    apply hne
    have := congrArg List.length he
    rw [sortQ_length] at this
    exact List.eq_nil_of_length_eq_zero this
  have hpt : pts.map Prod.snd ≠ [] := by
    obtain ⟨q, hq, -⟩ := h2
    intro he
    rw [List.map_eq_nil_iff] at he
    rw [he] at hq; cases hq
  unfold theil
  simp only [if_neg hso]
  have e1 : (median (pairSlopes pts)).getD 0 = 0 := median_getD_const hs hne
  have e2 : (median (pts.map Prod.snd)).getD 0 = c := by
    apply median_getD_const _ hpt
    intro v hv
    obtain ⟨p, hp, rfl⟩ := List.mem_map.mp hv
    exact h p hp
  rw [e1, e2]
  exact ⟨rfl, by ring⟩

theorem initialFit_const {c : ℚ} {zs : List Cell} (h : ∀ v, some v ∈ zs → v = c)
    (ha : ((bfill zs).take 14).all Option.isSome = true) (hl : 2 ≤ zs.length) :
    (initialFit zs).slope = 0 ∧ (initialFit zs).intercept = c := by
  unfold initialFit
  have hlen : (valids ((bfill zs).take 14)).length = min 14 zs.length := by
    rw [valids_length_all ha, List.length_take, bfill_length]
  apply theil_const
  · intro p hp
    obtain ⟨q, hq, rfl⟩ := List.mem_map.mp hp
    have := List.mem_zipIdx' hq
    simp only
    have hm : q.1 ∈ valids ((bfill zs).take 14) := by rw [this.2]; exact List.getElem_mem _
    exact bfill_const h _ (List.mem_of_mem_take (mem_valids.mp hm))
  · match hx : valids ((bfill zs).take 14) with
    | [] => rw [hx] at hlen; simp at hlen; omega
    | [a] => rw [hx] at hlen; simp at hlen; omega
    | a :: b :: l => exact ⟨(0, a), by simp [List.zipIdx], (1, b), by simp [List.zipIdx], by norm_num⟩

/-! ### Constant state -/

theorem predict_const {pn u c : ℚ} {k : KF} (h : k.s = ⟨c, 0⟩) (hu : u = 0) : (kPredict pn u k).s = ⟨c, 0⟩ := by
  unfold kPredict; rw [h, hu]; simp [V2.add, M2.app, kF]

theorem update_const {R c : ℚ} {k : KF} (h : k.s = ⟨c, 0⟩) : (kUpdate R c k).s = ⟨c, 0⟩ := by
  unfold kUpdate; rw [h]; simp [V2.add]

theorem qAt_const {l : List ℚ} {c : ℚ} (h : ∀ v ∈ l, v = c) {i : Nat} (hi : i < l.length) : qAt l i = c := by
  unfold qAt
  rw [List.getD_eq_getElem?_getD, List.getElem?_eq_getElem hi]
  exact h _ (List.getElem_mem _)

theorem predictDay_const {pn R c : ℚ} {n : Nat} {rm7 : List ℚ} (hm : ∀ v ∈ rm7, v = c) (hl : rm7.length = n) {se : List Nat}
    {i : Nat} {k : KF} {ce : List Nat} (h : k.s = ⟨c, 0⟩) : (predictDay pn R n rm7 se i k ce).1.s = ⟨c, 0⟩ := by
  have hx := predictDay_x pn R n rm7 se i k ce
  rcases hx.2 with e | ⟨h1, h2, e, -⟩
  · have : (predictDay pn R n rm7 se i k ce).1.s = ⟨(predictDay pn R n rm7 se i k ce).1.s.x, (predictDay pn R n rm7 se i k ce).1.s.r⟩ := rfl
    rw [this, hx.1, e, h]; simp
  · have : (predictDay pn R n rm7 se i k ce).1.s = ⟨(predictDay pn R n rm7 se i k ce).1.s.x, (predictDay pn R n rm7 se i k ce).1.s.r⟩ := rfl
    rw [this, hx.1, e, h, qAt_const hm (by omega)]

theorem forward_const {pn R c : ℚ} {n : Nat} {rm7 : List ℚ} (hm : ∀ v ∈ rm7, v = c) (hl : rm7.length = n) {se : List Nat}
    {zs : List Cell} (hz : ∀ v, some v ∈ zs → v = c) :
    ∀ {i : Nat} {k : KF} {ce : List Nat}, k.s = ⟨c, 0⟩ → ∀ s ∈ (forwardFrom pn R n rm7 se i k ce zs).1, s.s = ⟨c, 0⟩ := by
  induction zs with
  | nil => intro i k ce _ s hs; cases hs
  | cons z zs ih =>
    intro i k ce hk s hs
    have hp : (predictDay pn R n rm7 se i k ce).1.s = ⟨c, 0⟩ := predictDay_const hm hl hk
    have hu : (updateDay R (predictDay pn R n rm7 se i k ce).1 z).s = ⟨c, 0⟩ := by
      cases z with
      | none => exact hp
      | some z =>
        have : z = c := hz z List.mem_cons_self
        subst this
        exact update_const hp
    rcases List.mem_cons.mp hs with rfl | hs
    · exact hu
    · exact ih (fun v hv => hz v (List.mem_cons_of_mem _ hv)) hu s hs

theorem rtsStep_const {pn c : ℚ} {k next k' : KF} (hk : k.s = ⟨c, 0⟩) (hn : next.s = ⟨c, 0⟩) (h : rtsStep pn k next = .ok k') :
    k'.s = ⟨c, 0⟩ := by
  unfold rtsStep at h
  obtain ⟨m, -, h⟩ := bind_ok'.mp h
  cases h
  simp only [hk, hn]
  simp [V2.add, V2.sub, M2.app, kF]

theorem rts_const {pn c : ℚ} {l sm : List KF} (hl : ∀ k ∈ l, k.s = ⟨c, 0⟩) (h : rts pn l = .ok sm) : ∀ k ∈ sm, k.s = ⟨c, 0⟩ := by
  induction l generalizing sm with
  | nil => cases h; exact hl
  | cons k l ih =>
    cases l with
    | nil => cases h; exact hl
    | cons k2 l =>
      unfold rts at h
      obtain ⟨m, hm, h⟩ := bind_ok'.mp h
      have hf := ih (fun s hs => hl s (List.mem_cons_of_mem _ hs)) hm
      cases m with
      | nil => cases h; intro s hs; rw [List.mem_singleton.mp hs]; exact hl k List.mem_cons_self
      | cons nx ms =>
        simp only at h
        obtain ⟨k', hk', h⟩ := bind_ok'.mp h
        cases h
        intro s hs
        rcases List.mem_cons.mp hs with rfl | hs
        · exact rtsStep_const (hl k List.mem_cons_self) (hf nx List.mem_cons_self) hk'
        · exact hf s hs

theorem smoothFrom_const {pn c : ℚ} {raw : List KF} (hr : ∀ k ∈ raw, k.s = ⟨c, 0⟩) {b : List Nat} {sm : List KF}
    (h : smoothFrom pn raw b = .ok sm) : ∀ k ∈ sm, k.s = ⟨c, 0⟩ := by
  induction b generalizing sm with
  | nil => cases h; intro k hk; cases hk
  | cons s b ih =>
    cases b with
    | nil => cases h; exact fun k hk => hr k (List.mem_of_mem_drop hk)
    | cons e b =>
      unfold smoothFrom at h
      obtain ⟨seg, h1, h⟩ := bind_ok'.mp h
      obtain ⟨rest, h2, h⟩ := bind_ok'.mp h
      cases h
      intro k hk
      rcases List.mem_append.mp hk with hk | hk
      · exact rts_const (fun k hk => hr k (List.mem_of_mem_drop (List.mem_of_mem_take hk))) h1 k hk
      · exact ih h2 k hk

theorem filterPass_const {o : KalmanOpts} {zs : List Cell} {rm7 : List ℚ} {R c : ℚ} {fit : TheilFit} {se : List Nat} {a b : ℚ}
    {ce : List Nat} (hz : ∀ v, some v ∈ zs → v = c) (hm : ∀ v ∈ rm7, v = c) (hl : rm7.length = zs.length)
    (hs : fit.slope = 0) (hi : fit.intercept = c) {p : List Nat × List KF × ℚ × ℚ}
    (h : filterPass o zs rm7 R fit se a b ce = .ok p) : ∀ k ∈ p.2.1, k.s = ⟨c, 0⟩ := by
  unfold filterPass at h
  obtain ⟨sm, h1, rfl⟩ := map_ok.mp h
  refine smoothFrom_const (forward_const hm hl hz ?_) h1
  unfold initKF; rw [hs, hi]

theorem pruneLoop_const {o : KalmanOpts} {zs : List Cell} {rm7 : List ℚ} {R c : ℚ} {fit : TheilFit} {se : List Nat}
    (hz : ∀ v, some v ∈ zs → v = c) (hm : ∀ v ∈ rm7, v = c) (hl : rm7.length = zs.length)
    (hs : fit.slope = 0) (hi : fit.intercept = c) : ∀ {fuel counter : Nat} {st st' : KalmanState},
      (∀ k ∈ st.smooth, k.s = ⟨c, 0⟩) → pruneLoop o zs rm7 R fit se fuel counter st = .ok st' →
      ∀ k ∈ st'.smooth, k.s = ⟨c, 0⟩ := by
  intro fuel
  induction fuel with
  | zero =>
    intro counter st st' hst h
    unfold pruneLoop at h
    split_ifs at h
    cases h; exact hst
  | succ fuel ih =>
    intro counter st st' hst h
    unfold pruneLoop at h
    by_cases hc : counter < o.pruningIterations
    · rw [if_pos hc] at h
      obtain ⟨ce, -, h⟩ := bind_ok'.mp h
      by_cases he : ce = st.ce
      · rw [if_pos he] at h
        exact ih (by rw [finishPass_smooth]; exact hst) h
      · rw [if_neg he] at h
        obtain ⟨p, hp, h⟩ := bind_ok'.mp h
        exact ih (by rw [finishPass_smooth]; exact filterPass_const hz hm hl hs hi hp) h
    · rw [if_neg hc] at h
      cases h; exact hst

theorem cellVar_two {x : List Cell} {R : ℚ} (h : cellVar x = some R) : 2 ≤ (valids x).length ∧ 0 ≤ R := by
  unfold cellVar at h
  split_ifs at h with h2
  push Not at h2
  refine ⟨h2, ?_⟩
  cases h
  apply div_nonneg
  · apply List.sum_nonneg
    intro v hv
    obtain ⟨u, -, rfl⟩ := List.mem_map.mp hv
    positivity
  · have : (2 : ℚ) ≤ (valids x).length := by exact_mod_cast h2
    linarith

/-! ### Filled series -/

theorem ffillFrom_all {p : ℚ} (x : List Cell) : ∀ c ∈ ffillFrom (some p) x, c.isSome = true := by
  induction x generalizing p with
  | nil => intro c hc; cases hc
  | cons d l ih =>
    intro c hc
    cases d with
    | none =>
      rcases List.mem_cons.mp hc with rfl | hc
      · rfl
      · exact ih c hc
    | some v =>
      rcases List.mem_cons.mp hc with rfl | hc
      · rfl
      · exact ih c hc

theorem bfill_all {x : List Cell} (h : ∀ c ∈ x, c.isSome = true) : ∀ c ∈ bfill x, c.isSome = true := by
  induction x with
  | nil => intro c hc; cases hc
  | cons d l ih =>
    intro c hc
    cases d with
    | none => have := h none List.mem_cons_self; cases this
    | some v =>
      rcases List.mem_cons.mp hc with rfl | hc
      · rfl
      · exact ih (fun c hc => h c (List.mem_cons_of_mem _ hc)) c hc

theorem bfill_cons_none (l : List Cell) : bfill (none :: l) = (bfill l).head?.join :: bfill l := rfl

theorem bfill_none_all {l : List Cell} (h : ∀ c ∈ bfill l, c.isSome = true) (hne : l ≠ []) :
    ∀ c ∈ bfill (none :: l), c.isSome = true := by
  intro c hc
  rw [bfill_cons_none] at hc
  rcases List.mem_cons.mp hc with rfl | hc
  · cases hb : bfill l with
    | nil =>
      have := bfill_length l
      rw [hb] at this
      exact absurd (List.eq_nil_of_length_eq_zero this.symm) hne
    | cons a m =>
      have := h a (by rw [hb]; exact List.mem_cons_self)
      simpa using this
  · exact h c hc

theorem fill_all {x : List Cell} {v : ℚ} (h : some v ∈ x) : ∀ c ∈ bfill (ffill x), c.isSome = true := by
  unfold ffill
  induction x with
  | nil => cases h
  | cons d l ih =>
    cases d with
    | none =>
      have hl : some v ∈ l := by
        rcases List.mem_cons.mp h with e | e
        · cases e
        · exact e
      change ∀ c ∈ bfill (none :: ffillFrom none l), _
      refine bfill_none_all (ih hl) ?_
      intro e
      have := ffillFrom_length none l
      rw [e] at this
      rw [List.eq_nil_of_length_eq_zero this.symm] at hl
      cases hl
    | some u =>
      apply bfill_all
      intro c hc
      rcases List.mem_cons.mp hc with rfl | hc
      · rfl
      · exact ffillFrom_all l c hc

theorem ffill_all {x : List Cell} (h : (cellAt x 0).isSome = true) : ∀ c ∈ ffill x, c.isSome = true := by
  cases x with
  | nil => intro c hc; cases hc
  | cons d l =>
    cases d with
    | none => cases h
    | some u =>
      intro c hc
      rcases List.mem_cons.mp hc with rfl | hc
      · rfl
      · exact ffillFrom_all l c hc

theorem bfill_last_all {x : List Cell} (h : (cellAt x (x.length - 1)).isSome = true) : ∀ c ∈ bfill x, c.isSome = true := by
  induction x with
  | nil => intro c hc; cases hc
  | cons d l ih =>
    cases l with
    | nil =>
      cases d with
      | none => cases h
      | some u => intro c hc; rw [List.mem_singleton.mp hc]; rfl
    | cons d2 l =>
      have h' : (cellAt (d2 :: l) ((d2 :: l).length - 1)).isSome = true := by
        have e : (d :: d2 :: l).length - 1 = ((d2 :: l).length - 1) + 1 := by simp
        rw [e] at h
        exact h
      have ih := ih h'
      cases d with
      | none => exact bfill_none_all ih (by simp)
      | some u =>
        intro c hc
        rcases List.mem_cons.mp hc with rfl | hc
        · rfl
        · exact ih c hc

theorem rollMedianC_some {x : List Cell} (h : ∀ c ∈ x, c.isSome = true) {w : Nat} (hw : 0 < w) (hodd : w % 2 = 1) (hl : w ≤ x.length) :
    ∃ v, some v ∈ rollMedianC w x := by
  have hwin : ∀ c ∈ (List.range w).map (fun k : Nat => cellAt x (w / 2 - w / 2 + k)), c.isSome = true := by
    intro c hc
    obtain ⟨k, hk, rfl⟩ := List.mem_map.mp hc
    have hk := List.mem_range.mp hk
    unfold cellAt
    rw [List.getElem?_eq_getElem (by omega), Option.join_some]
    exact h _ (List.getElem_mem _)
  have hmed : (median (valids ((List.range w).map (fun k : Nat => cellAt x (w / 2 - w / 2 + k))))).isSome := by
    rw [median_isSome]
    intro e
    have := valids_length_all (List.all_eq_true.mpr hwin)
    rw [e, List.length_map, List.length_range] at this
    simp at this; omega
  obtain ⟨v, hv⟩ := Option.isSome_iff_exists.mp hmed
  refine ⟨v, ?_⟩
  unfold rollMedianC
  refine List.mem_map.mpr ⟨w / 2, List.mem_range.mpr (by omega), ?_⟩
  simp only
  rw [if_pos ⟨le_rfl, by omega, List.all_eq_true.mpr hwin⟩, hv]

theorem rollFilled_all {zs : List Cell} (h0 : (cellAt zs 0).isSome = true) (h1 : (cellAt zs (zs.length - 1)).isSome = true)
    (fwd : Bool) {w : Nat} (hw : 0 < w) (hodd : w % 2 = 1) (hl : w ≤ zs.length) :
    ∀ c ∈ rollFilled fwd w zs, c.isSome = true := by
  unfold rollFilled
  have hb : ∀ c ∈ (if fwd then ffill zs else bfill zs), c.isSome = true := by
    split_ifs
    · exact ffill_all h0
    · exact bfill_last_all h1
  have hlen : w ≤ (if fwd then ffill zs else bfill zs).length := by
    split_ifs
    · rw [ffill, ffillFrom_length]; exact hl
    · rw [bfill_length]; exact hl
  obtain ⟨v, hv⟩ := rollMedianC_some hb hw hodd hlen
  exact fill_all hv

theorem valids_two {x : List Cell} {i j : Nat} (hij : i < j) (hi : (cellAt x i).isSome = true) (hj : (cellAt x j).isSome = true) :
    2 ≤ (valids x).length := by
  have e : valids x = valids (x.take j) ++ valids (x.drop j) := by
    unfold valids; rw [← List.filterMap_append, List.take_append_drop]
  obtain ⟨u, hu⟩ := Option.isSome_iff_exists.mp hi
  obtain ⟨v, hv⟩ := Option.isSome_iff_exists.mp hj
  have h1 : u ∈ valids (x.take j) := by
    apply mem_valids.mpr
    apply cellAt_mem (i := i)
    unfold cellAt at hu ⊢
    rw [List.getElem?_take_of_lt hij]; exact hu
  have h2 : v ∈ valids (x.drop j) := by
    apply mem_valids.mpr
    apply cellAt_mem (i := 0)
    unfold cellAt at hv ⊢
    rw [List.getElem?_drop]; exact hv
  rw [e, List.length_append]
  have := List.length_pos_of_mem h1
  have := List.length_pos_of_mem h2
  omega

/-! ### Success -/

theorem ownEvents_ok {zs : List Cell} (h : 10 < zs.length) : ∃ ce, ownEvents zs = .ok ce := by
  have e1 : (rollingMedianCe true 9 (1/2) zs).1.length = zs.length := events_length _ _ _ _
  have e2 : (cellDiff (rollingMedianCe true 9 (1/2) zs).2).length = zs.length := by
    rw [← e1]
    unfold rollingMedianCe
    rw [List.length_map]
  obtain ⟨b, hb⟩ := C44_succeeds (cand := (rollingMedianCe true 9 (1/2) zs).1)
    (metric := cellDiff (rollingMedianCe true 9 (1/2) zs).2) (f := 5) (by rw [e1, e2]) (by omega) (by rw [e1]; omega) (by
      intro i _ _ hc
      have hc : getB ((cellDiff (filledMedian true 9 zs)).map _) i = true := hc
      unfold getB at hc
      rw [List.getD_eq_getElem?_getD, List.getElem?_map] at hc
      change (cellAt (cellDiff (filledMedian true 9 zs)) i).isSome = true
      unfold cellAt
      cases hx : (cellDiff (filledMedian true 9 zs))[i]? with
      | none => rw [hx] at hc; simp at hc
      | some d =>
        cases d with
        | none => rw [hx] at hc; simp [cellCmp] at hc
        | some d => rfl)
  refine ⟨truePos b, ?_⟩
  unfold ownEvents
  rw [hb]; rfl

theorem pruneEvents_ok (cps : ℚ) (pis : List ℚ) (ce : List Nat) : ∃ c, pruneEvents cps pis ce = .ok c := by
  unfold pruneEvents
  split_ifs with h
  · exact ⟨_, rfl⟩
  · have hne : ce.map (weekMedian pis) ≠ [] := by simpa using h
    unfold numericOutliers
    rw [if_neg hne]
    exact ⟨_, rfl⟩

theorem addEvents_ok (maxRate : ℚ) {rates : List ℚ} (hl : 8 < rates.length) (ce : List Nat) : ∃ c, addEvents maxRate rates ce = .ok c := by
  unfold addEvents
  split_ifs with h
  · obtain ⟨b, hb⟩ := C44_succeeds (cand := rates.map fun r => decide (maxRate < r)) (metric := rates.map some) (f := 4)
      (by simp) (by omega) (by rw [List.length_map]; omega) (by
        intro i _ _ hc
        have := getB_lt hc
        rw [List.length_map] at this
        unfold cellAt
        rw [List.getElem?_map, List.getElem?_eq_getElem this]; rfl)
    rw [hb]; exact ⟨_, rfl⟩
  · exact ⟨_, rfl⟩

theorem revise_ok {o : KalmanOpts} {st : KalmanState} (h : 8 < st.smooth.length) : ∃ c, revise o st = .ok c := by
  unfold revise
  obtain ⟨c, hc⟩ := pruneEvents_ok o.pruning (st.smooth.map fun k => k.s.x) st.ce
  obtain ⟨d, hd⟩ := addEvents_ok o.maxRate (rates := st.smooth.map fun k => k.s.r) (by rw [List.length_map]; exact h) c
  exact ⟨d, bind_ok'.mpr ⟨c, hc, hd⟩⟩

theorem Inv.d_pos {m : M2} (h : Inv m) : 0 < m.d := by
  rcases h with h | h
  · exact h.2.2.1
  · exact h.2.2.2

theorem filterPass_ok {o : KalmanOpts} (hp : o.processNoise ≠ 0) {zs : List Cell} (hz : zs ≠ []) {rm7 : List ℚ} {R : ℚ}
    (hR : 0 ≤ R) {fit : TheilFit} {se : List Nat} {a b : ℚ} (hb : b ≠ 0) {ce : List Nat} :
    ∃ p, filterPass o zs rm7 R fit se a b ce = .ok p ∧ p.2.2.2 ≠ 0 := by
  unfold filterPass
  simp only
  have hI := forward_Inv (n := zs.length) (rm7 := rm7) (se := se) (zs := zs) (i := 0) (ce := ce) hp hR
    (initKF_Inv (fit := fit) (a := a) hb)
  obtain ⟨sm, hsm⟩ := smoothFrom_ok hp hI
    (borders (forwardFrom o.processNoise R zs.length rm7 se 0 (initKF fit a b) ce zs).1.length
      (forwardFrom o.processNoise R zs.length rm7 se 0 (initKF fit a b) ce zs).2 se)
  have hl := forward_length o.processNoise R zs.length rm7 se 0 (initKF fit a b) ce zs
  refine ⟨_, map_ok.mpr ⟨sm, hsm, rfl⟩, ?_⟩
  simp only
  cases hg : (forwardFrom o.processNoise R zs.length rm7 se 0 (initKF fit a b) ce zs).1.getLast? with
  | none =>
    rw [List.getLast?_eq_none_iff] at hg
    rw [hg] at hl
    exact absurd (List.eq_nil_of_length_eq_zero hl.symm) hz
  | some k =>
    have := hI k (List.mem_of_getLast? hg)
    simp only [Option.map_some, Option.getD_some]
    exact this.d_pos.ne'

theorem pruneLoop_ok {o : KalmanOpts} (hp : o.processNoise ≠ 0) (hit : o.pruningIterations ≤ 100) {zs : List Cell}
    (hn : 8 < zs.length) {rm7 : List ℚ} {R : ℚ} (hR : 0 ≤ R) {fit : TheilFit} {se : List Nat}
    (hse : ∀ e ∈ se, e < zs.length) :
    ∀ {fuel counter : Nat} {st : KalmanState}, o.pruningIterations ≤ fuel + counter → StOk zs.length st → st.rateStd ≠ 0 →
      ∃ st', pruneLoop o zs rm7 R fit se fuel counter st = .ok st' := by
  intro fuel
  induction fuel with
  | zero =>
    intro counter st hf _ _
    unfold pruneLoop
    rw [if_neg (by omega)]
    exact ⟨st, rfl⟩
  | succ fuel ih =>
    intro counter st hf hst hr
    unfold pruneLoop
    by_cases hc : counter < o.pruningIterations
    · rw [if_pos hc]
      obtain ⟨ce, hce⟩ := revise_ok (o := o) (st := st) (by rw [hst.len]; exact hn)
      by_cases he : ce = st.ce
      · obtain ⟨st', hs⟩ := ih (counter := 100) (st := finishPass o st) (by omega)
          ⟨by rw [finishPass_ce]; exact hst.ev, by rw [finishPass_smooth]; exact hst.len⟩ (by rw [(finishPass_std o st).2]; exact hr)
        exact ⟨st', bind_ok'.mpr ⟨ce, hce, by rw [if_pos he]; exact hs⟩⟩
      · obtain ⟨p, hpp, hp2⟩ := filterPass_ok (o := o) hp (zs := zs) (by intro e; rw [e] at hn; simp at hn) (rm7 := rm7) hR
          (fit := fit) (se := se) (a := st.zsStd) hr (ce := ce)
        have hinv := filterPass_inv hse (revise_evOk hst hce) hpp
        obtain ⟨st', hs⟩ := ih (counter := counter + 1)
          (st := finishPass o { st with ce := p.1, smooth := p.2.1, zsStd := p.2.2.1, rateStd := p.2.2.2 }) (by omega)
          ⟨by rw [finishPass_ce]; exact hinv.1, by rw [finishPass_smooth]; exact hinv.2⟩
          (by rw [(finishPass_std o _).2]; exact hp2)
        exact ⟨st', bind_ok'.mpr ⟨ce, hce, by rw [if_neg he]; exact bind_ok'.mpr ⟨p, hpp, hs⟩⟩⟩
    · rw [if_neg hc]; exact ⟨st, rfl⟩

end Verif.Cods
