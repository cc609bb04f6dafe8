import Verif.Props.CodsMedian
import Verif.Props.CodsRun
import Verif.Props.CodsEventsList
import Verif.Props.SrrTheil

/-! # C64, C68: what the columns of a run of the Kalman filter are -/

namespace Verif.Cods

open Verif Verif.Spec

/-! ## Specification -/

/-- the median a day counts with: that of the last day up to it that has one or, if there is none, of the first day that has one -/
def Spec.MedianNear (fwd : Bool) (w : Nat) (y : List Cell) (i : Nat) (m : ℚ) : Prop :=
  i < y.length ∧ ((∃ j ≤ i, Spec.MedianOver fwd w y j m ∧ ∀ k u, j < k → k ≤ i → ¬Spec.MedianOver fwd w y k u) ∨
    ∃ j, i < j ∧ Spec.MedianOver fwd w y j m ∧ ∀ k u, k < j → ¬Spec.MedianOver fwd w y k u)

/-- the variance of the measurements: that of their distances from the median over thirteen days -/
def Spec.Noise (fwd : Bool) (y : List Cell) (R : ℚ) : Prop :=
  ∃ ds : List (Nat × ℚ), (ds.map Prod.fst).Nodup ∧
    (∀ i d, (i, d) ∈ ds ↔ ∃ m v, Spec.MedianNear fwd 13 y i m ∧ cellAt y i = some v ∧ d = m - v) ∧ 2 ≤ ds.length ∧
    ∃ μ, μ * ds.length = (ds.map Prod.snd).sum ∧ R * (ds.length - 1) = (ds.map fun x => (x.2 - μ) ^ 2).sum

/-- the slopes between any two of the values -/
def Spec.slopes (l : List ℚ) : List ℚ :=
  (List.range l.length).flatMap fun j => (List.range j).map fun i => (l.getD j 0 - l.getD i 0) / ((j : ℚ) - i)

/-- the line `c + b·day` through the first two weeks: the median slope, through the medians; a missing day counts with the next value -/
def Spec.StartLine (y : List Cell) (c b : ℚ) : Prop :=
  ∃ l : List ℚ, l.length = min 14 y.length ∧ (∀ k (h : k < l.length), Spec.Known false y k l[k]) ∧ IsMedian (Spec.slopes l) b ∧
    ∃ my mx, IsMedian l my ∧ IsMedian ((List.range l.length).map fun i : Nat => (i : ℚ)) mx ∧ c = my - b * mx

/-- `b` is the estimate of a day, given the estimate `a` of the day before, the predicted level `pr` and the measurement `z`, with
process noise `q` and variance `R` of the measurements -/
def Spec.Filtered (q R pr : ℚ) (a b : KF) (z : Cell) : Prop :=
  ∃ A B D, A = a.P.a + 2 * a.P.b + a.P.d + q ^ 2 / 4 ∧ B = a.P.b + a.P.d + q ^ 2 / 2 ∧ D = a.P.d + q ^ 2 ∧
    (z = none → b = ⟨⟨pr, a.s.r⟩, ⟨A, B, B, D⟩⟩) ∧
    ∀ v, z = some v → b = ⟨⟨pr + A / (A + R) * (v - pr), a.s.r + B / (A + R) * (v - pr)⟩,
      ⟨A * R / (A + R), B * R / (A + R), B * R / (A + R), D - B ^ 2 / (A + R)⟩⟩

/-- `s` is the smoothed level and rate of a day with estimate `k`, given the smoothed estimate `next` of the following day -/
def Spec.Backward (q : ℚ) (k next s : KF) : Prop :=
  ∃ A B D g h g' h', A = k.P.a + 2 * k.P.b + k.P.d + q ^ 2 / 4 ∧ B = k.P.b + k.P.d + q ^ 2 / 2 ∧ D = k.P.d + q ^ 2 ∧
    g * A + h * B = k.P.a + k.P.b ∧ g * B + h * D = k.P.b ∧ g' * A + h' * B = k.P.b + k.P.d ∧ g' * B + h' * D = k.P.d ∧
    s.s.x = k.s.x + g * (next.s.x - (k.s.x + k.s.r)) + h * (next.s.r - k.s.r) ∧
    s.s.r = k.s.r + g' * (next.s.x - (k.s.x + k.s.r)) + h' * (next.s.r - k.s.r)

/-- the filtered estimates `raw` of the series `y`, with `Event` the days that end as events; `u` and `v` are the standard deviations
of the level and of the rate at the start -/
structure Spec.Forward (o : KalmanOpts) (y : List Cell) (R u v : ℚ) (Event : Nat → Prop) (raw : List KF) : Prop where
  /-- one for each day -/
  length : raw.length = y.length
  /-- the first day continues the line through the first two weeks -/
  first : ∀ b, raw[0]? = some b → ∃ c m, Spec.StartLine y c m ∧
    Spec.Filtered o.processNoise R (c + m) ⟨⟨c, m⟩, ⟨u ^ 2, 0, 0, v ^ 2⟩⟩ b (cellAt y 0)
  /-- any other day continues from the day before; only on an event day, which is not in the first or last week, and only if the
  measurements leave the trend by more than half their standard deviation, it starts from the median of its week -/
  next : ∀ (j : Nat) (a b : KF), raw[j]? = some a → raw[j + 1]? = some b → ∃ pr, Spec.Filtered o.processNoise R pr a b (cellAt y (j + 1)) ∧
    (pr = a.s.x + a.s.r ∨ (Event (j + 1) ∧ 7 < j + 1 ∧ j + 8 < y.length ∧ Spec.MedianNear o.fwd 7 y (j + 4) pr ∧
      R < 4 * (pr - (a.s.x + a.s.r)) ^ 2))
  /-- the covariances are covariances -/
  cov : ∀ k ∈ raw, Spec.PSD k.P

/-- the standard deviations a run of the filter starts with: those of the call for the first run, and for any further one the last
*variances* of the run before -/
inductive Spec.Start (o : KalmanOpts) (y : List Cell) (R : ℚ) : ℚ → ℚ → Prop
  | call : Spec.Start o y R o.zsStd o.rateStd
  | again {u v : ℚ} {Event : Nat → Prop} {raw : List KF} {k : KF} : Spec.Start o y R u v → Spec.Forward o y R u v Event raw →
      raw.getLast? = some k → Spec.Start o y R k.P.a k.P.d

/-- the smoothed estimates `sm` from the filtered ones: backwards from the day before an event, from the day before the last one -/
structure Spec.Smoothed (o : KalmanOpts) (Event : Nat → Prop) (raw sm : List KF) : Prop where
  length : sm.length = raw.length
  /-- the last two days and the day before an event keep their estimate -/
  kept : ∀ i : Nat, (Event (i + 1) ∨ raw.length ≤ i + 2) → sm[i]? = raw[i]?
  /-- any other day -/
  step : ∀ (i : Nat) (k s n : KF), ¬Event (i + 1) → i + 2 < raw.length → raw[i]? = some k → sm[i]? = some s → sm[i + 1]? = some n →
    Spec.Backward o.processNoise k n s
  /-- smoothing only reduces the uncertainty -/
  cov : ∀ (i : Nat) (k s : KF), raw[i]? = some k → sm[i]? = some s → Spec.PSD s.P ∧ Spec.leM s.P k.P

/-! ## Medians -/

theorem medianNear_iff {fwd : Bool} {w : Nat} {y : List Cell} {i : Nat} {m : ℚ} :
    cellAt (rollFilled fwd w y) i = some m ↔ Spec.MedianNear fwd w y i m := by
  unfold rollFilled Spec.MedianNear
  simp only [← medianOver_iff]
  have hlen := filledMedian_length' fwd w y
  generalize filledMedian fwd w y = M at *
  rw [known_bfill]
  unfold Spec.Known
  rw [if_neg (by simp)]
  have none_of : ∀ {k : Nat}, (∀ u, cellAt M k ≠ some u) → cellAt M k = none := by
    intro k h
    cases hc : cellAt M k with
    | none => rfl
    | some u => exact absurd hc (h u)
  have ff : ∀ {k : Nat} {u : ℚ}, cellAt (ffill M) k = some u ↔
      k < M.length ∧ ∃ j ≤ k, cellAt M j = some u ∧ ∀ l, j < l → l ≤ k → cellAt M l = none := by
    intro k u
    rw [known_ffill]
    unfold Spec.Known
    rw [if_pos rfl]
  constructor
  · rintro ⟨j, hij, hj, hn⟩
    obtain ⟨hjl, j', hj', hm, hn'⟩ := ff.mp hj
    refine ⟨by omega, ?_⟩
    by_cases hc : j' ≤ i
    · refine .inl ⟨j', hc, hm, fun k u h1 h2 h3 => ?_⟩
      rw [hn' k h1 (by omega)] at h3
      cases h3
    · refine .inr ⟨j', by omega, hm, fun k u hk hu => ?_⟩
      -- the first entry from `k` on up to `j'` is known at every later day
      rcases Nat.lt_or_ge k i with hki | hki
      · -- `k < i`: the fill at `i` is not missing
        have hi := hn i le_rfl (by omega)
        have : ∃ u', cellAt (ffill M) i = some u' := by
          have hs := Nat.findGreatest_spec (P := fun j => (cellAt M j).isSome = true) hki.le (by rw [hu]; rfl)
          have hle := Nat.findGreatest_le (P := fun j => (cellAt M j).isSome = true) i
          have hgt : ∀ k, Nat.findGreatest (fun j => (cellAt M j).isSome = true) i < k → k ≤ i → cellAt M k = none := by
            intro k h1 h2
            have := Nat.findGreatest_is_greatest (P := fun j => (cellAt M j).isSome = true) h1 h2
            cases hk : cellAt M k with
            | none => rfl
            | some _ => rw [hk] at this; exact absurd rfl this
          generalize Nat.findGreatest (fun j => (cellAt M j).isSome = true) i = g at hs hle hgt
          obtain ⟨u', hu'⟩ := Option.isSome_iff_exists.mp hs
          exact ⟨u', ff.mpr ⟨by omega, g, hle, hu', hgt⟩⟩
        obtain ⟨u', hu'⟩ := this
        rw [hi] at hu'
        cases hu'
      · have h1 := hn k hki (by omega)
        have h2 : cellAt (ffill M) k = some u := ff.mpr ⟨by omega, k, le_rfl, hu, fun l a b => by omega⟩
        rw [h1] at h2
        cases h2
  · rintro ⟨hi, ⟨j, hj, hm, hn⟩ | ⟨j, hj, hm, hn⟩⟩
    · exact ⟨i, le_rfl, ff.mpr ⟨by omega, j, hj, hm, fun k h1 h2 => none_of fun u => hn k u h1 h2⟩, fun k h1 h2 => by omega⟩
    · refine ⟨j, hj.le, ff.mpr ⟨cellAt_lt hm, j, le_rfl, hm, fun k h1 h2 => by omega⟩, fun k _ h2 => ?_⟩
      cases hc : cellAt (ffill M) k with
      | none => rfl
      | some u =>
        obtain ⟨-, g, hg, hu, -⟩ := ff.mp hc
        exact absurd hu (hn g u (by omega))

theorem noise_of {fwd : Bool} {y : List Cell} {R : ℚ}
    (h : cellVar ((List.range y.length).map fun i =>
        cellOp (fun a b => a - b) (cellAt (rollFilled fwd 13 y) i) (cellAt y i)) = some R) : Spec.Noise fwd y R := by
  have h2 := (cellVar_two h).1
  unfold cellVar at h
  rw [if_neg (by omega)] at h
  generalize hx : ((List.range y.length).map fun i =>
        cellOp (fun a b => a - b) (cellAt (rollFilled fwd 13 y) i) (cellAt y i)) = x at *
  have hl : (withPos x).length = (valids x).length := by rw [← withPos_snd, List.length_map]
  refine ⟨withPos x, withPos_fst_nodup _, fun i d => ?_, by omega, (valids x).sum / (valids x).length, ?_, ?_⟩
  · rw [mem_withPos, ← hx, cellAt_range_map]
    simp only [← medianNear_iff]
    constructor
    · intro h
      split_ifs at h with hi
      cases ha : cellAt (rollFilled fwd 13 y) i with
      | none => rw [ha] at h; simp [cellOp] at h
      | some a =>
        cases hb : cellAt y i with
        | none => rw [ha, hb] at h; simp [cellOp] at h
        | some b =>
          rw [ha, hb] at h
          simp only [cellOp, Option.some.injEq] at h
          exact ⟨a, b, rfl, rfl, h.symm⟩
    · rintro ⟨a, b, ha, hb, rfl⟩
      rw [if_pos (cellAt_lt hb), ha, hb]
      rfl
  · rw [hl, withPos_snd]
    have : ((valids x).length : ℚ) ≠ 0 := by
      have : (valids x).length ≠ 0 := by omega
      exact_mod_cast this
    field_simp
  · have h1 : ((valids x).length : ℚ) - 1 ≠ 0 := by
      have : (2 : ℚ) ≤ (valids x).length := by exact_mod_cast h2
      intro h; linarith
    have e : (withPos x).map (fun p => (p.2 - (valids x).sum / (valids x).length) ^ 2) =
        (valids x).map fun v => (v - (valids x).sum / (valids x).length) ^ 2 := by
      conv_rhs => rw [← withPos_snd, List.map_map]
      rw [withPos_snd]
      rfl
    rw [hl, e]
    simp only [Option.some.injEq] at h
    rw [← h, div_mul_cancel₀ _ h1]

/-! ## Start -/

theorem pairSlopes_zipIdx (l : List ℚ) : pairSlopes (l.zipIdx.map fun p => ((p.2 : ℚ), p.1)) = Spec.slopes l := by
  have hs : ((l.zipIdx.map fun p => (⟨0, p.2, 0, 0, p.1, 0, false, 0⟩ : SrrRow))).Pairwise fun d e => d.day < e.day := by
    rw [List.pairwise_iff_getElem]
    intro i j hi hj hij
    simp only [List.getElem_map, List.getElem_zipIdx]
    omega
  have := pairSlopes_days hs
  rw [List.map_map] at this
  refine Eq.trans this ?_
  unfold daySlopes Spec.slopes
  rw [List.length_map, List.length_zipIdx]
  apply List.flatMap_congr
  intro j hj
  rw [List.mem_range] at hj
  apply List.map_congr_left
  intro i hi
  rw [List.mem_range] at hi
  have hil : i < l.length := by omega
  simp [List.getD_eq_getElem?_getD, hj, hil]

theorem slopes_ne_nil {l : List ℚ} (h : 2 ≤ l.length) : Spec.slopes l ≠ [] := by
  intro hn
  have : (l.getD 1 0 - l.getD 0 0) / (((1 : Nat) : ℚ) - ((0 : Nat) : ℚ)) ∈ Spec.slopes l := by
    unfold Spec.slopes
    rw [List.mem_flatMap]
    exact ⟨1, List.mem_range.mpr (by omega), List.mem_map.mpr ⟨0, List.mem_range.mpr (by omega), rfl⟩⟩
  rw [hn] at this
  cases this

theorem median_some' {l : List ℚ} (h : l ≠ []) : ∃ m, median l = some m :=
  Option.isSome_iff_exists.mp (median_isSome.mpr h)

theorem startLine_of {y : List Cell} (h : ((bfill y).take 14).all Option.isSome = true) (h2 : 2 ≤ y.length) :
    Spec.StartLine y (initialFit y).intercept (initialFit y).slope := by
  have hl : (bfill y).length = y.length := bfill_length _
  have hget : ∀ k, k < min 14 y.length → ∃ v, cellAt ((bfill y).take 14) k = some v ∧ cellAt (bfill y) k = some v := by
    intro k hk
    have hk' : k < ((bfill y).take 14).length := by rw [List.length_take]; omega
    have := List.all_eq_true.mp h _ (List.getElem_mem hk')
    obtain ⟨v, hv⟩ := Option.isSome_iff_exists.mp this
    refine ⟨v, by rw [cellAt_eq_getElem hk', hv], ?_⟩
    rw [List.getElem_take] at hv
    rw [cellAt_eq_getElem (by omega), hv]
  have hv : (valids ((bfill y).take 14)).map some = (bfill y).take 14 := by
    generalize (bfill y).take 14 = x at h
    induction x with
    | nil => rfl
    | cons c x ih =>
      rw [List.all_cons, Bool.and_eq_true] at h
      obtain ⟨v, rfl⟩ := Option.isSome_iff_exists.mp h.1
      simp only [valids, List.filterMap_cons, id, List.map_cons]
      rw [show List.filterMap (fun a => a) x = valids x from rfl, ih h.2]
  unfold initialFit
  generalize hL : valids ((bfill y).take 14) = l at *
  have hll : l.length = min 14 y.length := by
    have := congrArg List.length hv
    rw [List.length_map, List.length_take, hl] at this
    exact this
  have hne : Spec.slopes l ≠ [] := slopes_ne_nil (by omega)
  have hsn : sortQ (Spec.slopes l) ≠ [] := fun e => hne (by
    have := (sortQ_perm (Spec.slopes l)).length_eq
    rw [e] at this
    exact List.length_eq_zero_iff.mp this.symm)
  unfold theil
  simp only [pairSlopes_zipIdx, if_neg hsn, List.map_map]
  have e1 : (l.zipIdx.map (Prod.snd ∘ fun p : ℚ × Nat => ((p.2 : ℚ), p.1))) = l := by
    apply List.ext_getElem
    · simp
    · intro i h1 h2; simp
  have e2 : (l.zipIdx.map (Prod.fst ∘ fun p : ℚ × Nat => ((p.2 : ℚ), p.1))) = (List.range l.length).map fun i : Nat => (i : ℚ) := by
    apply List.ext_getElem
    · simp
    · intro i h1 h2; simp
  rw [e1, e2]
  obtain ⟨b, hb⟩ := median_some' hne
  obtain ⟨my, hmy⟩ := median_some' (l := l) (by intro e; rw [e] at hll; simp at hll; omega)
  obtain ⟨mx, hmx⟩ := median_some' (l := (List.range l.length).map fun i : Nat => (i : ℚ)) (by
    intro e; have := congrArg List.length e; simp at this; rw [this] at hll; simp at hll; omega)
  rw [hb, hmy, hmx]
  refine ⟨l, hll, fun k hk => ?_, isMedian_iff.mpr hb, my, mx, isMedian_iff.mpr hmy, isMedian_iff.mpr hmx, rfl⟩
  rw [← known_bfill]
  obtain ⟨v, h1, h2⟩ := hget k (by omega)
  rw [h2]
  rw [← hv] at h1
  unfold cellAt at h1
  rw [List.getElem?_map, List.getElem?_eq_getElem hk] at h1
  simpa using h1.symm

/-! ## Forward pass -/

theorem mem_insort' {l : List Nat} {x e : Nat} (h : e ∈ l) : e ∈ insort l x := by
  unfold insort
  rw [List.mem_append, List.mem_cons, List.mem_filter, List.mem_filter]
  rcases Nat.lt_or_ge x e with g | g
  · exact .inr (.inr ⟨h, by simpa using g⟩)
  · exact .inl ⟨h, by simpa using g⟩

theorem setControl_keeps {s : V2} {R : ℚ} {win : List ℚ} {index e : Nat} {ce : List Nat} (he : e ∈ ce) (hne : e ≠ index) :
    e ∈ (setControl s R win index ce).2 := by
  unfold setControl
  have := (List.mem_erase_of_ne hne).mpr he
  split_ifs
  · exact he
  · exact this
  · exact mem_insort' this
  · exact this

theorem predictDay_keeps {pn R : ℚ} {n : Nat} {rm7 : List ℚ} {se : List Nat} {i e : Nat} {k : KF} {ce : List Nat} (he : e ∈ ce)
    (hne : e ≠ i) : e ∈ (predictDay pn R n rm7 se i k ce).2 := by
  unfold predictDay
  split_ifs
  · exact setControl_keeps he hne
  · exact he

theorem forward_keeps {pn R : ℚ} {n : Nat} {rm7 : List ℚ} {se : List Nat} {zs : List Cell} :
    ∀ {i e : Nat} {k : KF} {ce : List Nat}, e ∈ ce → e < i → e ∈ (forwardFrom pn R n rm7 se i k ce zs).2 := by
  induction zs with
  | nil => intro i e k ce he _; exact he
  | cons z zs ih =>
    intro i e k ce he hi
    unfold forwardFrom
    exact ih (predictDay_keeps he (by omega)) (by omega)

theorem forward_next {pn R : ℚ} {n : Nat} {rm7 : List ℚ} {se : List Nat} {zs : List Cell} :
    ∀ {i : Nat} {k : KF} {ce : List Nat} {j : Nat} {a b : KF},
      (forwardFrom pn R n rm7 se i k ce zs).1[j]? = some a → (forwardFrom pn R n rm7 se i k ce zs).1[j + 1]? = some b →
      ∃ ce' z, zs[j + 1]? = some z ∧ b = updateDay R (predictDay pn R n rm7 se (i + j + 1) a ce').1 z ∧
        ∀ e ∈ (predictDay pn R n rm7 se (i + j + 1) a ce').2, e ≤ i + j + 1 → e ∈ (forwardFrom pn R n rm7 se i k ce zs).2 := by
  induction zs with
  | nil => intro i k ce j a b h; cases h
  | cons z zs ih =>
    intro i k ce j a b ha hb
    unfold forwardFrom at ha hb ⊢
    cases j with
    | zero =>
      simp only [List.getElem?_cons_zero, Option.some.injEq] at ha
      simp only [List.getElem?_cons_succ] at hb
      simp only
      rw [ha] at hb ⊢
      cases zs with
      | nil => cases hb
      | cons z2 zs =>
        unfold forwardFrom at hb ⊢
        simp only [List.getElem?_cons_zero, Option.some.injEq] at hb
        exact ⟨_, z2, rfl, hb.symm, fun e he hl => forward_keeps he (by omega)⟩
    | succ j =>
      simp only [List.getElem?_cons_succ] at ha hb
      obtain ⟨ce', z', h1, h2, h3⟩ := ih ha hb
      have ei : i + 1 + j + 1 = i + (j + 1) + 1 := by omega
      rw [ei] at h2 h3
      exact ⟨ce', z', h1, h2, h3⟩

/-- the predicted level leaves the trend only on an event day, which stays one -/
theorem predictDay_event (pn R : ℚ) (n : Nat) (rm7 : List ℚ) (se : List Nat) (i : Nat) (k : KF) (ce : List Nat) :
    (predictDay pn R n rm7 se i k ce).1.s.x = k.s.x + k.s.r ∨
      (7 < i ∧ i + 7 < n ∧ (i ∈ (predictDay pn R n rm7 se i k ce).2 ∨ i ∈ se) ∧
        (predictDay pn R n rm7 se i k ce).1.s.x = qAt rm7 (i + 3) ∧ R < 4 * (qAt rm7 (i + 3) - (k.s.x + k.s.r)) ^ 2) := by
  unfold predictDay
  by_cases hc : controlled n i ce se
  · rw [if_pos hc]
    have hc := of_decide_eq_true hc
    have e8 : qAt ((rm7.drop (i - 5)).take 11) 8 = qAt rm7 (i + 3) := by
      rw [qAt_window rm7 (by omega) (by omega)]; congr 1; omega
    unfold setControl
    rw [e8]
    split_ifs with h1 h2
    · right
      refine ⟨hc.1, hc.2.1, hc.2.2, ?_, h2⟩
      simp only [kPredict, V2.add, M2.app, kF]; ring
    all_goals left; simp [kPredict, V2.add, M2.app, kF]
  · rw [if_neg hc]
    exact .inl (by simp [kPredict, V2.add, M2.app, kF])

theorem filtered_of {pn R : ℚ} (hp : pn ≠ 0) (hR : 0 ≤ R) {a k : KF} (hs : Inv a.P) (hP : k.P = ((kF.mul a.P).mul kF.tr).add (kQ pn))
    (hr : k.s.r = a.s.r) (z : Cell) : Spec.Filtered pn R k.s.x a (updateDay R k z) z := by
  have hpd := predict_PD hp hs
  rw [← hP] at hpd
  have hsym : a.P.b = a.P.c := (Inv.psd hs).1
  have eA : k.P.a = a.P.a + 2 * a.P.b + a.P.d + pn ^ 2 / 4 := by
    rw [hP]; simp only [M2.add, M2.mul, kF, M2.tr, kQ]; rw [hsym]; ring
  have eB : k.P.b = a.P.b + a.P.d + pn ^ 2 / 2 := by
    rw [hP]; simp only [M2.add, M2.mul, kF, M2.tr, kQ]; ring
  have eD : k.P.d = a.P.d + pn ^ 2 := by
    rw [hP]; simp only [M2.add, M2.mul, kF, M2.tr, kQ]; ring
  have eC := hpd.1
  refine ⟨k.P.a, k.P.b, k.P.d, eA, eB, eD, fun h => ?_, fun v h => ?_⟩
  · rw [h]
    unfold updateDay
    obtain ⟨⟨x, r⟩, ⟨pa, pb, pc, pd⟩⟩ := k
    simp only at hr eC ⊢
    rw [hr, ← eC]
  · rw [h]
    show kUpdate R v k = _
    have hS : 0 < kS R k := by unfold kS; linarith [hpd.2.1]
    have hu := update_P (z := v) hS.ne' eC
    have e1 : (kUpdate R v k).s = ⟨k.s.x + k.P.a / (k.P.a + R) * (v - k.s.x), a.s.r + k.P.b / (k.P.a + R) * (v - k.s.x)⟩ := by
      unfold kUpdate kS
      simp only [V2.add]
      rw [← eC, hr]
    have e2 : kUpdate R v k = ⟨(kUpdate R v k).s, (kUpdate R v k).P⟩ := rfl
    rw [e2, e1, hu]
    unfold kS
    rw [← eC]
    congr 2
    ring

/-! ## Smoother -/

theorem rts_step {pn : ℚ} {l sm : List KF} (h : rts pn l = .ok sm) {i : Nat} {k s n : KF} (hk : l[i]? = some k) (hs : sm[i]? = some s)
    (hn : sm[i + 1]? = some n) : rtsStep pn k n = .ok s := by
  induction l generalizing sm i with
  | nil => cases h; cases hs
  | cons k1 l ih =>
    cases l with
    | nil => cases h; cases hn
    | cons k2 l =>
      unfold rts at h
      obtain ⟨m, hm, h⟩ := bind_ok'.mp h
      cases m with
      | nil =>
        have := rts_length hm
        simp at this
      | cons nx m =>
        obtain ⟨k', hk', h⟩ := bind_ok'.mp h
        cases h
        cases i with
        | zero =>
          simp only [List.getElem?_cons_zero, List.getElem?_cons_succ, Option.some.injEq] at hk hs hn
          subst hk; subst hs; subst hn
          exact hk'
        | succ i =>
          simp only [List.getElem?_cons_succ] at hk hs hn
          exact ih hm hk hs (by simpa using hn)

theorem backward_of {pn : ℚ} {k n s : KF} (hsym : k.P.b = k.P.c) (h : rtsStep pn k n = .ok s) : Spec.Backward pn k n s := by
  unfold rtsStep at h
  simp only at h
  obtain ⟨ip, hi, h⟩ := bind_ok'.mp h
  cases h
  have hpp : ((kF.mul k.P).mul kF.tr).add (kQ pn) = ⟨k.P.a + 2 * k.P.b + k.P.d + pn ^ 2 / 4, k.P.b + k.P.d + pn ^ 2 / 2,
      k.P.b + k.P.d + pn ^ 2 / 2, k.P.d + pn ^ 2⟩ := by
    simp only [M2.add, M2.mul, kF, M2.tr, kQ]
    rw [← hsym]
    congr 1 <;> ring
  rw [hpp] at hi
  have hx : ∀ A B D : ℚ, M2.inv ⟨A, B, B, D⟩ = .ok ip →
      ((k.P.mul kF.tr).mul ip).a * A + ((k.P.mul kF.tr).mul ip).b * B = k.P.a + k.P.b ∧
      ((k.P.mul kF.tr).mul ip).a * B + ((k.P.mul kF.tr).mul ip).b * D = k.P.b ∧
      ((k.P.mul kF.tr).mul ip).c * A + ((k.P.mul kF.tr).mul ip).d * B = k.P.b + k.P.d ∧
      ((k.P.mul kF.tr).mul ip).c * B + ((k.P.mul kF.tr).mul ip).d * D = k.P.d := by
    intro A B D hi
    unfold M2.inv M2.det at hi
    split_ifs at hi with hd
    clear hpp
    cases hi
    simp only at hd
    simp only [M2.mul, kF, M2.tr]
    rw [← hsym]
    have he : (A * D - B * B) * (A * D - B * B)⁻¹ = 1 := mul_inv_cancel₀ hd
    simp only [div_eq_mul_inv]
    generalize (A * D - B * B)⁻¹ = e at *
    refine ⟨?_, ?_, ?_, ?_⟩
    · linear_combination (k.P.a + k.P.b) * he
    · linear_combination k.P.b * he
    · linear_combination (k.P.b + k.P.d) * he
    · linear_combination k.P.d * he
  obtain ⟨h1, h2, h3, h4⟩ := hx _ _ _ hi
  refine ⟨_, _, _, _, _, _, _, rfl, rfl, rfl, h1, h2, h3, h4, ?_, ?_⟩
  · simp only [V2.add, V2.sub, M2.app, kF]; ring
  · simp only [V2.add, V2.sub, M2.app, kF]; ring

/-- the border that follows a day, and the one before -/
theorem around {b : List Nat} (hs : b.Pairwise (· ≤ ·)) (h0 : b.head? = some 0) {i z : Nat} (hz : z ∈ b) (hi : i < z) :
    ∃ j s e, b[j]? = some s ∧ b[j + 1]? = some e ∧ s ≤ i ∧ i < e ∧ ∀ x ∈ b, i < x → e ≤ x := by
  have hex : ∃ j : Nat, ∃ e : Nat, b[j]? = some e ∧ i < e := by
    obtain ⟨j, hj, rfl⟩ := List.getElem_of_mem hz
    exact ⟨j, _, List.getElem?_eq_getElem hj, hi⟩
  have hf := Nat.find_spec hex
  have hmin := fun k (hk : k < Nat.find hex) => Nat.find_min hex hk
  generalize Nat.find hex = j at hf hmin
  obtain ⟨e, he, hie⟩ := hf
  cases j with
  | zero =>
    rw [List.head?_eq_getElem?, he] at h0
    cases h0
    omega
  | succ j =>
    have hjl : j + 1 < b.length := (List.getElem?_eq_some_iff.mp he).1
    refine ⟨j, b[j], e, List.getElem?_eq_getElem _, he, ?_, hie, fun x hx hix => ?_⟩
    · by_contra hc
      exact hmin j (by omega) ⟨b[j], List.getElem?_eq_getElem _, by omega⟩
    · obtain ⟨m, hm, rfl⟩ := List.getElem_of_mem hx
      obtain ⟨_, rfl⟩ := List.getElem?_eq_some_iff.mp he
      by_cases hmj : m < j + 1
      · exact absurd ⟨b[m], List.getElem?_eq_getElem _, hix⟩ (hmin m hmj)
      · rcases Nat.lt_or_eq_of_le (not_lt.mp hmj) with h | h
        · exact List.pairwise_iff_getElem.mp hs _ _ hjl hm h
        · subst h; exact le_rfl

theorem smoothed_of {o : KalmanOpts} {raw sm : List KF} {ce se : List Nat} (hce : ∀ x ∈ ce, x < raw.length)
    (hse : ∀ x ∈ se, x < raw.length) (h : smoothResults o.processNoise raw ce se = .ok sm) (hpsd : ∀ k ∈ raw, Spec.PSD k.P)
    (hcov : ∀ (i : Nat) (k s : KF), raw[i]? = some k → sm[i]? = some s → Spec.PSD s.P ∧ Spec.leM s.P k.P) {Event : Nat → Prop}
    (hev : ∀ e, Event e ↔ e ∈ ce ∨ e ∈ se) : Spec.Smoothed o Event raw sm := by
  have hl : sm.length = raw.length := smoothResults_length hce hse h
  have hb := borders_sorted raw.length ce se
  have h0 := borders_head raw.length ce se
  have hlast : raw.length - 1 ∈ borders raw.length ce se := mem_borders.mpr (.inr (.inr (.inl rfl)))
  refine ⟨hl, fun i hi => ?_, fun i k s n hne hi hk hs hn => ?_, hcov⟩
  · by_cases hlt : i + 1 < raw.length
    · have hmem : i + 1 ∈ borders raw.length ce se := by
        rw [mem_borders]
        rcases hi with hi | hi
        · rcases (hev _).mp hi with h | h
          · exact .inl h
          · exact .inr (.inr (.inr h))
        · exact .inr (.inr (.inl (by omega)))
      obtain ⟨j, s, e, hs, he, hsi, hie, hmin⟩ := around hb h0 hmem (Nat.lt_succ_self i)
      have : e = i + 1 := by have := hmin _ hmem (Nat.lt_succ_self i); omega
      subst this
      exact C68_before_event hce hse h ⟨j, hs, he⟩ (by omega) (by omega)
    · by_cases hg : raw.length ≤ i
      · rw [List.getElem?_eq_none (by omega), List.getElem?_eq_none (by omega)]
      · have := C68_last_day hce hse h
        rw [List.getLast?_eq_getElem?, List.getLast?_eq_getElem?, hl] at this
        have e : raw.length - 1 = i := by omega
        rwa [e] at this
  · obtain ⟨j, a, e, ha, he, hai, hie, -⟩ := around hb h0 (i := i) hlast (by omega)
    have hne' : e ≠ i + 1 := by
      rintro rfl
      rcases mem_borders.mp (List.mem_of_getElem? he) with h | h | h | h
      · exact hne ((hev _).mpr (.inl h))
      · omega
      · omega
      · exact hne ((hev _).mpr (.inr h))
    have hseg := C68_segment hce hse h ⟨j, ha, he⟩
    refine backward_of (hpsd k (List.mem_of_getElem? hk)).1 (rts_step hseg (i := i - a) ?_ ?_ ?_)
    · rw [List.getElem?_take_of_lt (by omega), List.getElem?_drop, Nat.add_sub_cancel' hai]; exact hk
    · rw [List.getElem?_take_of_lt (by omega), List.getElem?_drop, Nat.add_sub_cancel' hai]; exact hs
    · rw [List.getElem?_take_of_lt (by omega), List.getElem?_drop, show a + (i - a + 1) = i + 1 by omega]; exact hn

/-! ## The run -/

/-- the columns come from one pass -/
theorem pruneLoop_pass {o : KalmanOpts} (hp : o.processNoise ≠ 0) {zs : List Cell} (hz : zs ≠ []) {rm7 : List ℚ} {R : ℚ} (hR : 0 ≤ R)
    {fit : TheilFit} {se : List Nat} (hse : ∀ e ∈ se, e < zs.length) {Q : ℚ → ℚ → Prop}
    (hQ : ∀ {a b ce0 p}, Q a b → b ≠ 0 → EvOk zs.length ce0 → filterPass o zs rm7 R fit se a b ce0 = .ok p → Q p.2.2.1 p.2.2.2) :
    ∀ {fuel counter : Nat} {st st' : KalmanState}, StOk zs.length st →
      (st.rateStd ≠ 0 ∧ ∃ a b ce0, Q a b ∧ b ≠ 0 ∧ EvOk zs.length ce0 ∧
        filterPass o zs rm7 R fit se a b ce0 = .ok (st.ce, st.smooth, st.zsStd, st.rateStd)) →
      pruneLoop o zs rm7 R fit se fuel counter st = .ok st' →
      ∃ a b ce0, Q a b ∧ b ≠ 0 ∧ EvOk zs.length ce0 ∧
        filterPass o zs rm7 R fit se a b ce0 = .ok (st'.ce, st'.smooth, st'.zsStd, st'.rateStd) := by
  intro fuel
  induction fuel with
  | zero =>
    intro counter st st' hst hpass h
    unfold pruneLoop at h
    split_ifs at h
    cases h; exact hpass.2
  | succ fuel ih =>
    intro counter st st' hst hpass h
    unfold pruneLoop at h
    by_cases hc : counter < o.pruningIterations
    · rw [if_pos hc] at h
      obtain ⟨ce, hrev, h⟩ := bind_ok'.mp h
      by_cases he : ce = st.ce
      · rw [if_pos he] at h
        refine ih ⟨by rw [finishPass_ce]; exact hst.ev, by rw [finishPass_smooth]; exact hst.len⟩ ?_ h
        rw [finishPass_ce, finishPass_smooth, (finishPass_std o _).1, (finishPass_std o _).2]
        exact hpass
      · rw [if_neg he] at h
        obtain ⟨p, hpp, h⟩ := bind_ok'.mp h
        have hev := revise_evOk hst hrev
        have := filterPass_inv hse hev hpp
        refine ih ⟨by rw [finishPass_ce]; exact this.1, by rw [finishPass_smooth]; exact this.2⟩ ?_ h
        rw [finishPass_ce, finishPass_smooth, (finishPass_std o _).1, (finishPass_std o _).2]
        obtain ⟨p', hp1, hp2⟩ := filterPass_ok (o := o) hp hz (rm7 := rm7) hR (fit := fit) (se := se) (a := st.zsStd) hpass.1
          (ce := ce)
        rw [hpp] at hp1
        cases hp1
        obtain ⟨hr0, a, b, ce0, hq, hb, hce0, hf⟩ := hpass
        exact ⟨hp2, _, _, ce, hQ hq hb hce0 hf, hr0, hev, hpp⟩
    · rw [if_neg hc] at h
      cases h; exact hpass.2

theorem pass_estimates {o : KalmanOpts} (hp : o.processNoise ≠ 0) {zs : List Cell} {R : ℚ} (hR : 0 ≤ R)
    (h7 : (rollFilled o.fwd 7 zs).all Option.isSome = true) (h14 : ((bfill zs).take 14).all Option.isSome = true)
    (h2 : 2 ≤ zs.length) {a b : ℚ} (hb : b ≠ 0) {ce0 : List Nat} (hce : EvOk zs.length ce0) {p : List Nat × List KF × ℚ × ℚ}
    (h : filterPass o zs (valids (rollFilled o.fwd 7 zs)) R (initialFit zs) (truePos (soilingEvents o.fwd 5 zs)) a b ce0 = .ok p)
    {Event : Nat → Prop} (hev : ∀ e, Event e ↔ e ∈ p.1 ∨ e ∈ truePos (soilingEvents o.fwd 5 zs)) :
    ∃ raw, Spec.Forward o zs R a b Event raw ∧ Spec.Smoothed o Event raw p.2.1 ∧
      ∃ k, raw.getLast? = some k ∧ p.2.2 = (k.P.a, k.P.d) := by
  have hse : ∀ e ∈ truePos (soilingEvents o.fwd 5 zs), e < zs.length := by
    intro e he
    have := getB_lt (mem_truePos.mp he)
    rwa [length_soilingEvents] at this
  have hev' := (filterPass_inv hse hce h).1
  have h' := h
  unfold filterPass at h
  obtain ⟨sm, h1, rfl⟩ := map_ok.mp h
  simp only at hev hev'
  have hI := forward_Inv (n := zs.length) (rm7 := valids (rollFilled o.fwd 7 zs)) (se := truePos (soilingEvents o.fwd 5 zs))
    (zs := zs) (i := 0) (ce := ce0) hp hR (initKF_Inv (fit := initialFit zs) (a := a) hb)
  have hl := forward_length o.processNoise R zs.length (valids (rollFilled o.fwd 7 zs)) (truePos (soilingEvents o.fwd 5 zs)) 0
    (initKF (initialFit zs) a b) ce0 zs
  have hq : ∀ i, i < zs.length → Spec.MedianNear o.fwd 7 zs i (qAt (valids (rollFilled o.fwd 7 zs)) i) := by
    intro i hi
    rw [← medianNear_iff]
    have hlr := rollFilled_length o.fwd 7 zs
    have : (valids (rollFilled o.fwd 7 zs)).map some = rollFilled o.fwd 7 zs := by
      generalize rollFilled o.fwd 7 zs = x at h7
      induction x with
      | nil => rfl
      | cons c x ih =>
        rw [List.all_cons, Bool.and_eq_true] at h7
        obtain ⟨v, rfl⟩ := Option.isSome_iff_exists.mp h7.1
        simp only [valids, List.filterMap_cons, id, List.map_cons]
        rw [show List.filterMap (fun a => a) x = valids x from rfl, ih h7.2]
    have hll := congrArg List.length this
    rw [List.length_map, hlr] at hll
    conv_lhs => rw [← this]
    unfold cellAt qAt
    rw [List.getElem?_map, List.getD_eq_getElem?_getD, List.getElem?_eq_getElem (by omega)]
    rfl
  refine ⟨_, ⟨hl, ?_, ?_, fun k hk => (hI k hk).psd⟩, ?_, ?_⟩
  · intro k hk
    refine ⟨(initialFit zs).intercept, (initialFit zs).slope, startLine_of h14 h2, ?_⟩
    cases zs with
    | nil => simp at h2
    | cons z zs =>
      unfold forwardFrom at hk
      simp only [List.getElem?_cons_zero, Option.some.injEq] at hk
      have hnc : ∀ (n : Nat) (rm7 : List ℚ) (se : List Nat) (k : KF),
          predictDay o.processNoise R n rm7 se 0 k ce0 = (kPredict o.processNoise 0 k, ce0) := by
        intro n rm7 se k
        unfold predictDay
        rw [if_neg (by simp [controlled])]
      rw [hnc] at hk
      have := filtered_of hp hR (a := initKF (initialFit (z :: zs)) a b) (k := kPredict o.processNoise 0 (initKF (initialFit (z :: zs)) a b))
        (initKF_Inv hb) rfl (by simp [kPredict, V2.add, M2.app, kF]) z
      rw [hk] at this
      have e : (kPredict o.processNoise 0 (initKF (initialFit (z :: zs)) a b)).s.x =
          (initialFit (z :: zs)).intercept + (initialFit (z :: zs)).slope := by
        simp [kPredict, V2.add, M2.app, kF, initKF]
      rw [e] at this
      exact this
  · intro j x y hx hy
    obtain ⟨ce', z, hz, rfl, hkeep⟩ := forward_next hx hy
    rw [Nat.zero_add] at hkeep ⊢
    have hzc : cellAt zs (j + 1) = z := by unfold cellAt; rw [hz]; rfl
    rw [hzc]
    refine ⟨_, filtered_of hp hR (hI x (List.mem_of_getElem? hx)) (predictDay_P _ _ _ _ _ _ _ _)
      (predictDay_x _ _ _ _ _ _ _ _).1 z, ?_⟩
    rcases predictDay_event o.processNoise R zs.length (valids (rollFilled o.fwd 7 zs)) (truePos (soilingEvents o.fwd 5 zs)) (j + 1) x ce'
      with h | ⟨g1, g2, g3, g4, g5⟩
    · exact .inl h
    · refine .inr ⟨(hev _).mpr (g3.imp (fun h => hkeep _ h le_rfl) id), g1, by omega, ?_, ?_⟩
      · rw [g4]
        exact hq (j + 4) (by omega)
      · rw [g4]; exact g5
  · have hcov := @C64_smoothed_covariance { o with zsStd := a, rateStd := b } hp hb R hR zs (valids (rollFilled o.fwd 7 zs))
      (initialFit zs) (truePos (soilingEvents o.fwd 5 zs)) ce0 _ sm h1
    exact smoothed_of (by rw [hl]; exact hev'.2) (by rw [hl]; exact hse) h1 (fun k hk => (hI k hk).psd)
      (fun i k s hk hs => hcov hk hs) hev
  · generalize (forwardFrom o.processNoise R zs.length (valids (rollFilled o.fwd 7 zs)) (truePos (soilingEvents o.fwd 5 zs)) 0
      (initKF (initialFit zs) a b) ce0 zs).1 = raw at hl ⊢
    cases hg : raw.getLast? with
    | none =>
      rw [List.getLast?_eq_none_iff.mp hg] at hl
      simp only [List.length_nil] at hl
      omega
    | some k => exact ⟨k, rfl, rfl⟩

/-- **C64, C68 (the run).** The levels and rates of a successful call are the smoothed estimates of the series, for the variance of
its measurements: the filtered estimates are those of a Kalman filter that continues the trend from day to day and starts afresh
only on event days, and they are smoothed backwards from event to event. The filter starts with the standard deviations of the call
or, if it was run before, with the last variances of the run before in their place. The events are those that the call reports and the soiling
events. -/
theorem C64_run {o : KalmanOpts} (hp : o.processNoise ≠ 0) (hr : o.rateStd ≠ 0) {fuel : Nat} {zs : List Cell} {pre : Prescient}
    (hv : Spec.validEvents zs.length pre) {out : KalmanOut} (h : kalmanSR o fuel zs pre = .ok out) {Event : Nat → Prop}
    (hev : ∀ e, Event e ↔ out.events[e]? = some true ∨ (soilingEvents o.fwd 5 zs)[e]? = some true) :
    ∃ R u v raw sm, 0 ≤ R ∧ Spec.Noise o.fwd zs R ∧ Spec.Start o zs R u v ∧ Spec.Forward o zs R u v Event raw ∧
      Spec.Smoothed o Event raw sm ∧ out.smooth = sm.map KF.s := by
  obtain ⟨ce, R, p, st, h1, hR, h3, h4, rfl, h7, h14⟩ := kalmanSR_ok h
  have hR0 := (cellVar_two hR).2
  have hlen : 2 ≤ zs.length := by
    have := (cellVar_two hR).1
    refine this.trans ((List.length_filterMap_le _ _).trans ?_)
    rw [List.length_map, List.length_range]
  have hz : zs ≠ [] := by rintro rfl; simp at hlen
  have hse : ∀ e ∈ truePos (soilingEvents o.fwd 5 zs), e < zs.length := by
    intro e he
    have := getB_lt (mem_truePos.mp he)
    rwa [length_soilingEvents] at this
  have hev0 := startEvents_evOk hv h1
  have hst := filterPass_inv hse hev0 h3
  obtain ⟨p', hp1, hp2⟩ := filterPass_ok (o := o) hp hz (rm7 := valids (rollFilled o.fwd 7 zs)) hR0 (fit := initialFit zs)
    (se := truePos (soilingEvents o.fwd 5 zs)) (a := o.zsStd) hr (ce := ce)
  rw [h3] at hp1
  cases hp1
  have hst' := pruneLoop_inv hse (st := ⟨p.1, p.2.1, zs.map fun _ => none, zs.map fun _ => none, p.2.2.1, p.2.2.2⟩)
    ⟨hst.1, hst.2⟩ h4
  obtain ⟨a, b, ce0, hQ, hb, hce0, hpass⟩ := pruneLoop_pass hp hz hR0 hse (Q := Spec.Start o zs R) (by
      intro a b ce0 p hq hb hce hpass
      obtain ⟨raw, hf, -, k, hk, e⟩ := pass_estimates hp hR0 h7 h14 hlen hb hce hpass (fun e => Iff.rfl)
      rw [e]
      exact .again hq hf hk)
    (st := ⟨p.1, p.2.1, zs.map fun _ => none, zs.map fun _ => none, p.2.2.1, p.2.2.2⟩) ⟨hst.1, hst.2⟩
    ⟨hp2, o.zsStd, o.rateStd, ce, .call, hr, hev0, h3⟩ h4
  obtain ⟨raw, hf, hs, -⟩ := pass_estimates hp hR0 h7 h14 hlen hb hce0 hpass (Event := Event) (by
    intro e
    rw [hev, mem_truePos]
    refine or_congr ?_ ?_
    · unfold kalmanOut
      simp only [List.getElem?_map, Option.map_eq_some_iff, decide_eq_true_eq]
      constructor
      · rintro ⟨i, hi, he⟩
        obtain ⟨_, rfl⟩ := List.getElem?_eq_some_iff.mp hi
        simpa using he
      · intro he
        have := hst'.ev.2 e he
        exact ⟨e, by rw [List.getElem?_range this], he⟩
    · unfold getB
      rw [List.getD_eq_getElem?_getD]
      cases (soilingEvents o.fwd 5 zs)[e]? <;> simp)
  exact ⟨R, a, b, raw, st.smooth, hR0, noise_of hR, hQ, hf, hs, rfl⟩

/-- a series that rises by 1/10 on day 9, which is passed as event, with a missing day: the level of day 8 is that before the rise, and
that of day 9 the one after it -/
example : (kalmanSR {} 2 ((List.range 19).map fun i => if i = 4 then none else if i < 9 then some (9/10) else some 1)
    (.positions [9])).map (fun o => (o.smooth[8]?, o.smooth[9]?, truePos o.events)) =
    .ok (some ⟨9/10, 0⟩, some ⟨1, 0⟩, [9]) := by decide +kernel

end Verif.Cods
