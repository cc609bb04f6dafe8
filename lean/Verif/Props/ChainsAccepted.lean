import Verif.Model.ChainsClear
import Verif.Props.ChainsGrid
import Verif.Props.Filtering
import Verif.Props.AggregationAlign
import Verif.Lemmas.Quantile

/-! # C134: which samples and which periods an analysis uses, in numbers (rdtools/analysis_chains.py) -/

namespace Verif.Chains
open Verif.Spec
variable {Loc σ : Type} {n : Numeric} {k : Keywords} {x : SkyArgs Loc} {rest : Env Loc YoYResult σ} {c : Case}
  {s s' : TA Loc YoYResult σ}

/-- the value of `y` at time `t` lies strictly between two bounds -/
def Spec.Between (y : Series) (t : Int) (lo hi : Flt) : Prop :=
  ∃ v, lookupK y t = some v ∧ Below lo (.fin v) ∧ Below (.fin v) hi

/-- what `clearsky_filter` asks of a time: measured and clear-sky irradiance differ by no more than a fraction of the latter, or
pvlib detects clear sky -/
def Spec.ClearAt (detect : DetectCall → List Bool) (measured clearsky : Series) (t : Int) : ClearskyArgs → Prop
  | .csi thr => ∃ m g, lookupK measured t = some m ∧ lookupK clearsky t = some g ∧ g ≠ 0 ∧ |m - g| ≤ thr * |g|
  | .pvlib freq p a b d lookup kwargs => ∃ call,
      clearskyCall measured clearsky (freq (measured.map Prod.fst)) p a b d lookup kwargs = .ok call ∧
      verdictAt ((call.rows.map Prod.fst).zip (detect call)) t = true
  | .rejected _ => False

/-- what an analysis of case `c` with the filter parameters `params` asks of the time `t`: `N` is the normalized energy, `s` holds
irradiance, temperature and power -/
structure Spec.Used (n : Numeric) (k : Keywords) (x : SkyArgs Loc) (s : TA Loc YoYResult σ) (c : Case) (params : FilterDict FVal)
    (N : Series) (t : Int) : Prop where
  sampled : t ∈ N.map Prod.fst
  energy : ∀ kw, params.items.get? "normalized_filter" = some (.kwargs kw) →
    Between N t ((k.normalized kw).1.getD .ninf) ((k.normalized kw).2.getD .pinf)
  irradiance : ∀ kw, params.items.get? "poa_filter" = some (.kwargs kw) →
    ∃ g, Spec.irradiance s c = some g ∧ Between g t (k.poa kw).1 (k.poa kw).2
  temperature : ∀ kw, params.items.get? "tcell_filter" = some (.kwargs kw) →
    ∃ y, Spec.cellTemperature s c = some y ∧ Between y t (k.tcell kw).1 (k.tcell kw).2
  clipping : ∀ kw, params.items.get? "clip_filter" = some (.kwargs kw) →
    ∃ p v, s.pvPower = some p ∧ clipVerdicts n.predict p (n.clipArgs kw) = .ok v ∧
      verdictAt ((p.map Prod.fst).zip v) t = true
  hourAngle : ∀ kw, params.items.get? "hour_angle_filter" = some (.kwargs kw) →
    ∃ loc, s.location = some (some loc) ∧ AtMost (x.hourAngle kw).1 (x.angle loc t) ∧
      AtMost (x.angle loc t) (x.hourAngle kw).2
  clear : ∀ name kw, (name = "clearsky_filter" ∧ c = .clearsky ∨ name = "sensor_clearsky_filter") →
    params.items.get? name = some (.kwargs kw) →
    ∃ m g, s.poa = some m ∧ s.poaCs = some (some g) ∧ Spec.ClearAt x.detect m g t (x.clearsky kw)
  adHoc : Spec.AdHocAccepts params t

theorem verdictAt_map_rows {y : Series} {f : Int → Bool} (t : Int) :
    verdictAt (y.map fun r => (r.1, f r.1)) t = true ↔ t ∈ y.map Prod.fst ∧ f t = true := by
  induction y with
  | nil => simp [verdictAt]
  | cons r y ih =>
    obtain ⟨u, w⟩ := r
    simp only [List.map_cons, verdictAt, List.mem_cons]
    by_cases hu : u = t
    · subst hu; simp
    · rw [if_neg hu, ih]
      simp [Ne.symm hu]

theorem verdictAt_pointwise_lookup {f : Flt → Bool} (hf : f .nan = false) (y : Series) (t : Int) :
    verdictAt (pointwise f y) t = f (Flt.ofCell (lookupK y t)) := by
  unfold pointwise
  induction y with
  | nil => simp [verdictAt, lookupK, Flt.ofCell, hf]
  | cons r y ih =>
    obtain ⟨u, w⟩ := r
    simp only [List.map_cons, verdictAt, lookupK]
    by_cases hu : u = t
    · rw [if_pos hu, if_pos hu]
    · rw [if_neg hu, if_neg hu, ih]

theorem pointwise_between {f : Flt → Bool} {lo hi : Flt} (hf : ∀ v, f v = true ↔ Below lo v ∧ Below v hi) (y : Series) (t : Int) :
    verdictAt (pointwise f y) t = true ↔ Spec.Between y t lo hi := by
  have hnan : f .nan = false := by
    rw [← Bool.not_eq_true, hf]
    rintro ⟨⟨a, b, -, hb, -⟩, -⟩
    cases hb
  rw [verdictAt_pointwise_lookup hnan]
  unfold Spec.Between
  cases lookupK y t with
  | none => simp [Flt.ofCell, hnan]
  | some v => simp [Flt.ofCell, hf]

theorem csi_iff (thr : ℚ) (m g : Cell) : csiFilter thr (Flt.ofCell m) (Flt.ofCell g) = true ↔
    ∃ a b, m = some a ∧ g = some b ∧ b ≠ 0 ∧ |a - b| ≤ thr * |b| := by
  cases m with
  | none => simp [csiFilter, Flt.ofCell, Flt.div, Flt.le]
  | some a =>
    cases g with
    | none => simp [csiFilter, Flt.ofCell, Flt.div, Flt.le]
    | some b =>
      by_cases hb : b = 0
      · subst hb
        have := C12_csi_zero thr (.fin a)
        simp only [Flt.ofCell, this]
        simp
      · have hab : 0 < |b| := abs_pos.mpr hb
        simp only [csiFilter, Flt.ofCell, Flt.div, Flt.ofDiv, if_neg hb, Flt.le, Bool.and_eq_true, decide_eq_true_eq,
          Option.some.injEq, exists_eq_left', exists_and_left]
        have : (1 - thr ≤ a / b ∧ a / b ≤ 1 + thr) ↔ |a / b - 1| ≤ thr := by
          rw [abs_le]
          constructor <;> rintro ⟨h1, h2⟩ <;> constructor <;> linarith
        rw [this]
        have h2 : a / b - 1 = (a - b) / b := by field_simp
        rw [h2, abs_div, div_le_iff₀ hab]
        exact ⟨fun h => ⟨hb, h⟩, fun h => h.2⟩

theorem csiMask_iff (thr : ℚ) (m g : Series) (t : Int) : verdictAt (csiMask thr m g) t = true ↔
    ∃ a b, lookupK m t = some a ∧ lookupK g t = some b ∧ b ≠ 0 ∧ |a - b| ≤ thr * |b| := by
  unfold csiMask
  rw [verdictAt_map (fun t => csiFilter thr (Flt.ofCell (lookupK m t)) (Flt.ofCell (lookupK g t))), csi_iff, mem_sortedUnion]
  constructor
  · exact fun h => h.2
  · intro h
    refine ⟨?_, h⟩
    by_contra hcon
    obtain ⟨a, b, ha, -⟩ := h
    rw [lookupK_not_mem (fun hx => hcon (List.mem_append_left _ hx))] at ha
    cases ha

theorem clearskyMask_iff (detect : DetectCall → List Bool) (m g : Series) (a : ClearskyArgs) (t : Int) :
    (∃ r, clearskyMask detect m g a = .ok r ∧ verdictAt r t = true) ↔ Spec.ClearAt detect m g t a := by
  cases a with
  | csi thr => simp [clearskyMask, Spec.ClearAt, csiMask_iff]
  | pvlib freq p a b d lookup kwargs =>
    simp only [clearskyMask, Spec.ClearAt]
    generalize clearskyCall m g (freq (m.map Prod.fst)) p a b d lookup kwargs = X
    cases X <;> simp [Except.map]
  | rejected e => simp [clearskyMask, Spec.ClearAt]

/-- nothing of what the filters look at changes after the normalization -/
theorem stable_used (c : Case) (u : TA Loc YoYResult σ) :
    StableOut c fun v : TA Loc YoYResult σ => v.poa = u.poa ∧ v.poaCs = u.poaCs ∧ v.tcell = u.tcell ∧ v.tcellCs = u.tcellCs ∧
      v.pvPower = u.pvPower ∧ v.location = u.location := by
  constructor
  · rintro s d h - -; cases c <;> exact h
  · rintro s d h - -; cases c <;> exact h
  · rintro s f h -; cases c <;> exact h

/-- an applied filter of that name -/
theorem applied_poa {env : Env Loc YoYResult σ} {N : Series} {u : TA Loc YoYResult σ} {r : Except PyErr BMask}
    (h : Spec.Applied env u N c "poa_filter" r) : ∃ kw g, u.params.items.get? "poa_filter" = some (.kwargs kw) ∧
      Spec.irradiance u c = some g ∧ r = env.poaF kw g := by
  generalize hn : "poa_filter" = nm at h
  cases h with
  | poaSensor hg hp => exact ⟨_, _, hg, hp, rfl⟩
  | poaClearsky hg hp => exact ⟨_, _, hg, by simp only [Spec.irradiance, hp, Option.bind_some, id], rfl⟩
  | _ => exact absurd hn (by decide)

/-- an applied filter of that name -/
theorem applied_tcell {env : Env Loc YoYResult σ} {N : Series} {u : TA Loc YoYResult σ} {r : Except PyErr BMask}
    (h : Spec.Applied env u N c "tcell_filter" r) : ∃ kw g, u.params.items.get? "tcell_filter" = some (.kwargs kw) ∧
      Spec.cellTemperature u c = some g ∧ r = env.tcellF kw g := by
  generalize hn : "tcell_filter" = nm at h
  cases h with
  | tcellSensor hg hp => exact ⟨_, _, hg, hp, rfl⟩
  | tcellClearsky hg hp => exact ⟨_, _, hg, by simp only [Spec.cellTemperature, hp, Option.bind_some, id], rfl⟩
  | _ => exact absurd hn (by decide)

/-- an applied filter of that name -/
theorem applied_clip {env : Env Loc YoYResult σ} {N : Series} {u : TA Loc YoYResult σ} {r : Except PyErr BMask}
    (h : Spec.Applied env u N c "clip_filter" r) : ∃ kw g, u.params.items.get? "clip_filter" = some (.kwargs kw) ∧
      u.pvPower = some g ∧ r = env.clipF kw g := by
  generalize hn : "clip_filter" = nm at h
  cases h with
  | clip hg hp => exact ⟨_, _, hg, hp, rfl⟩
  | _ => exact absurd hn (by decide)

/-- an applied filter of that name -/
theorem applied_hourAngle {env : Env Loc YoYResult σ} {N : Series} {u : TA Loc YoYResult σ} {r : Except PyErr BMask}
    (h : Spec.Applied env u N c "hour_angle_filter" r) : ∃ kw loc, u.params.items.get? "hour_angle_filter" = some (.kwargs kw) ∧
      u.location = some (some loc) ∧ r = env.hourAngleF kw N loc := by
  generalize hn : "hour_angle_filter" = nm at h
  cases h with
  | hourAngle hg hp => exact ⟨_, _, hg, hp, rfl⟩
  | _ => exact absurd hn (by decide)

/-- an applied filter of that name -/
theorem applied_clear {env : Env Loc YoYResult σ} {N : Series} {u : TA Loc YoYResult σ} {r : Except PyErr BMask} {name : String}
    (h : Spec.Applied env u N c name r) (hname : name = "clearsky_filter" ∨ name = "sensor_clearsky_filter") :
    ∃ kw m g, u.params.items.get? name = some (.kwargs kw) ∧ u.poa = some m ∧ u.poaCs = some (some g) ∧
      r = env.clearskyF kw m g := by
  cases h with
  | clearsky hg hp hp' => exact ⟨_, _, _, hg, hp, hp', rfl⟩
  | sensorClearsky hg hp hp' => exact ⟨_, _, _, hg, hp, hp', rfl⟩
  | _ => exact absurd hname (by decide)

theorem filter_used {N : Series} {u v : TA Loc YoYResult σ} {r : TA Loc YoYResult σ}
    (h : filter (skyEnv n k x rest) N c u = (.ok (), r))
    (hv : v.poa = u.poa ∧ v.poaCs = u.poaCs ∧ v.tcell = u.tcell ∧ v.tcellCs = u.tcellCs ∧ v.pvPower = u.pvPower ∧
      v.location = u.location) :
    ∃ mask, (r.out c).mask = some mask ∧ ∀ t, verdictAt mask t = true ↔ Spec.Used n k x v c u.params N t := by
  obtain ⟨v1, v2, v3, v4, v5, v6⟩ := hv
  obtain ⟨mask, hm, hc⟩ := C53_conjunction h
  refine ⟨mask, hm, fun t => ?_⟩
  rw [hc]
  have ok : ∀ {m : BMask} {P : Prop}, (verdictAt m t = true ↔ P) →
      ((∃ m', (.ok m : Except PyErr BMask) = .ok m' ∧ verdictAt m' t = true) ↔ P) := by
    intro m P hP
    simp [hP]
  have hE : ∀ kw, (∃ m, (skyEnv n k x rest).normalizedF kw N = .ok m ∧ verdictAt m t = true) ↔
      Spec.Between N t ((k.normalized kw).1.getD .ninf) ((k.normalized kw).2.getD .pinf) := fun kw =>
    ok (pointwise_between (fun _ => C12_normalized _ _ _) N t)
  have hG : ∀ kw g, (∃ m, (skyEnv n k x rest).poaF kw g = .ok m ∧ verdictAt m t = true) ↔
      Spec.Between g t (k.poa kw).1 (k.poa kw).2 := fun kw g =>
    ok (pointwise_between (fun _ => (C12_poa_tcell _ _ _).1) g t)
  have hT : ∀ kw g, (∃ m, (skyEnv n k x rest).tcellF kw g = .ok m ∧ verdictAt m t = true) ↔
      Spec.Between g t (k.tcell kw).1 (k.tcell kw).2 := fun kw g =>
    ok (pointwise_between (fun _ => (C12_poa_tcell _ _ _).2) g t)
  have hA : ∀ kw loc, (∃ m, (skyEnv n k x rest).hourAngleF kw N loc = .ok m ∧ verdictAt m t = true) ↔
      t ∈ N.map Prod.fst ∧ AtMost (x.hourAngle kw).1 (x.angle loc t) ∧ AtMost (x.angle loc t) (x.hourAngle kw).2 := fun kw loc =>
    ok (by
      unfold hourAngleMask
      rw [verdictAt_map_rows (f := fun t => hourAngleFilter (x.hourAngle kw).1 (x.hourAngle kw).2 (x.angle loc t)), C12_hour_angle])
  have hP : ∀ kw p, (∃ m, (skyEnv n k x rest).clipF kw p = .ok m ∧ verdictAt m t = true) ↔
      ∃ v, clipVerdicts n.predict p (n.clipArgs kw) = .ok v ∧ verdictAt ((p.map Prod.fst).zip v) t = true := by
    intro kw p
    show (∃ m, (clipVerdicts n.predict p (n.clipArgs kw)).map _ = .ok m ∧ verdictAt m t = true) ↔ _
    generalize clipVerdicts n.predict p (n.clipArgs kw) = X
    cases X <;> simp [Except.map]
  have hC : ∀ kw m g, (∃ r, (skyEnv n k x rest).clearskyF kw m g = .ok r ∧ verdictAt r t = true) ↔
      Spec.ClearAt x.detect m g t (x.clearsky kw) := fun kw m g => clearskyMask_iff _ _ _ _ _
  constructor
  · rintro ⟨ht, hap, had⟩
    have en : ∀ name ∈ Spec.names c, ∀ kw, u.params.items.get? name = some (.kwargs kw) →
        ∃ r, Spec.Applied (skyEnv n k x rest) u N c name r := fun name hn kw hg => C53_enabled h hn (by rw [hg]; simp)
    refine ⟨ht, fun kw hg => (hE kw).mp (hap _ _ (.normalized hg)), fun kw hg => ?_, fun kw hg => ?_, fun kw hg => ?_,
      fun kw hg => ?_, ?_, had⟩
    · obtain ⟨_, hr⟩ := en "poa_filter" (by cases c <;> simp [Spec.names]) kw hg
      have hr' := hap _ _ hr
      obtain ⟨kw', g, hg', hp, rfl⟩ := applied_poa hr
      rw [hg] at hg'; cases hg'
      exact ⟨g, by cases c <;> simpa only [Spec.irradiance, v1, v2] using hp, (hG _ _).mp hr'⟩
    · obtain ⟨_, hr⟩ := en "tcell_filter" (by cases c <;> simp [Spec.names]) kw hg
      have hr' := hap _ _ hr
      obtain ⟨kw', g, hg', hp, rfl⟩ := applied_tcell hr
      rw [hg] at hg'; cases hg'
      exact ⟨g, by cases c <;> simpa only [Spec.cellTemperature, v3, v4] using hp, (hT _ _).mp hr'⟩
    · obtain ⟨_, hr⟩ := en "clip_filter" (by cases c <;> simp [Spec.names]) kw hg
      have hr' := hap _ _ hr
      obtain ⟨kw', g, hg', hp, rfl⟩ := applied_clip hr
      rw [hg] at hg'; cases hg'
      obtain ⟨w, h1, h2⟩ := (hP _ _).mp hr'
      exact ⟨_, w, v5.trans hp, h1, h2⟩
    · obtain ⟨_, hr⟩ := en "hour_angle_filter" (by cases c <;> simp [Spec.names]) kw hg
      have hr' := hap _ _ hr
      obtain ⟨kw', g, hg', hp, rfl⟩ := applied_hourAngle hr
      rw [hg] at hg'; cases hg'
      exact ⟨_, v6.trans hp, ((hA _ _).mp hr').2⟩
    · intro name kw hname hg
      obtain ⟨_, hr⟩ := en name (by rcases hname with ⟨rfl, rfl⟩ | rfl <;> [skip; cases c] <;> simp [Spec.names]) kw hg
      have hr' := hap _ _ hr
      obtain ⟨kw', m, g, hg', hp, hp', rfl⟩ := applied_clear hr (hname.imp And.left id)
      rw [hg] at hg'; cases hg'
      exact ⟨_, _, v1.trans hp, v2.trans hp', (hC _ _ _).mp hr'⟩
  · rintro ⟨ht, a1, a2, a3, a4, a5, a6, had⟩
    refine ⟨ht, fun name r hr => ?_, had⟩
    cases hr with
    | normalized hg => exact (hE _).mpr (a1 _ hg)
    | poaSensor hg hp =>
      obtain ⟨g, e, hb⟩ := a2 _ hg
      rw [← v1] at hp
      cases hp.symm.trans e
      exact (hG _ _).mpr hb
    | poaClearsky hg hp =>
      obtain ⟨g, e, hb⟩ := a2 _ hg
      simp only [Spec.irradiance, v2, hp, Option.bind_some, id, Option.some.injEq] at e
      subst e
      exact (hG _ _).mpr hb
    | tcellSensor hg hp =>
      obtain ⟨g, e, hb⟩ := a3 _ hg
      rw [← v3] at hp
      cases hp.symm.trans e
      exact (hT _ _).mpr hb
    | tcellClearsky hg hp =>
      obtain ⟨g, e, hb⟩ := a3 _ hg
      simp only [Spec.cellTemperature, v4, hp, Option.bind_some, id, Option.some.injEq] at e
      subst e
      exact (hT _ _).mpr hb
    | clip hg hp =>
      obtain ⟨p, w, e, h1, h2⟩ := a4 _ hg
      rw [← v5] at hp
      cases hp.symm.trans e
      exact (hP _ _).mpr ⟨w, h1, h2⟩
    | hourAngle hg hp =>
      obtain ⟨loc, e, hb⟩ := a5 _ hg
      rw [← v6] at hp
      cases hp.symm.trans e
      exact (hA _ _).mpr ⟨ht, hb⟩
    | clearsky hg hp hp' =>
      obtain ⟨m, g, e, e', hb⟩ := a6 _ _ (Or.inl ⟨rfl, rfl⟩) hg
      rw [← v1] at hp
      rw [← v2] at hp'
      cases hp.symm.trans e
      cases hp'.symm.trans e'
      exact (hC _ _ _).mpr hb
    | sensorClearsky hg hp hp' =>
      obtain ⟨m, g, e, e', hb⟩ := a6 _ _ (Or.inr rfl) hg
      rw [← v1] at hp
      rw [← v2] at hp'
      cases hp.symm.trans e
      cases hp'.symm.trans e'
      exact (hC _ _ _).mpr hb

/-- what an analysis asks of the period from `L`: `A` is the normalized energy of all periods with accepted samples, `B` their
insolation -/
structure Spec.Kept (k : Keywords) (params : FilterDict FVal) (A B : Series) (L : Int) : Prop where
  listed : L ∈ A.map Prod.fst
  window : ∀ kw, params.items.get? "two_way_window_filter" = some (.kwargs kw) →
    ∀ v q, lookupK A L = some v → IsQuantile (valids (A.map Prod.snd)) (99/100) q → q ≠ 0 →
      ¬ (FarFromMedian (present A (L - (k.twoWay kw).1) L) v ((k.twoWay kw).2 * |q|) ∧
        FarFromMedian (present A L (L + (k.twoWay kw).1)) v ((k.twoWay kw).2 * |q|))
  insolation : ∀ kw, params.items.get? "insolation_filter" = some (.kwargs kw) →
    0 ≤ k.insolation kw ∧ k.insolation kw ≤ 1 ∧
      ∃ w lim, lookupK B L = some w ∧ IsQuantile (valids (B.map Prod.snd)) (k.insolation kw) lim ∧ lim ≤ w
  hampel : ∀ kw, params.items.get? "hampel_filter" = some (.kwargs kw) →
    verdictAt ((A.map Prod.fst).zip (hampelFilter A (k.hampel kw).1 (k.hampel kw).2)) L = true
  tukey : ∀ kw, params.items.get? "directional_tukey_filter" = some (.kwargs kw) →
    verdictAt ((A.map Prod.fst).zip (directionalTukeyFilter A (k.tukey kw).1 (k.tukey kw).2)) L = true
  adHoc : Spec.AdHocAccepts params L

theorem verdictAt_zip {y : List (Int × Cell)} {v : List Bool} (hy : (y.map Prod.fst).Nodup) {i : Nat} {t : Int} {w : Cell}
    (hi : y[i]? = some (t, w)) : verdictAt ((y.map Prod.fst).zip v) t = true ↔ v[i]? = some true := by
  induction y generalizing v i with
  | nil => simp at hi
  | cons r y ih =>
    obtain ⟨u, z⟩ := r
    rw [List.map_cons, List.nodup_cons] at hy
    cases v with
    | nil => simp [verdictAt]
    | cons b v =>
      cases i with
      | zero =>
        simp only [List.getElem?_cons_zero, Option.some.injEq, Prod.mk.injEq] at hi
        obtain ⟨rfl, rfl⟩ := hi
        simp [verdictAt]
      | succ i =>
        rw [List.getElem?_cons_succ] at hi
        have hne : u ≠ t := by
          rintro rfl
          exact hy.1 (List.mem_map.mpr ⟨_, List.mem_of_getElem? hi, rfl⟩)
        simp only [List.map_cons, List.zip_cons_cons, verdictAt, if_neg hne, List.getElem?_cons_succ]
        exact ih hy.2 hi

theorem lookupK_row {y : Series} (hy : (y.map Prod.fst).Nodup) {i : Nat} {t : Int} {w : Cell} (hi : y[i]? = some (t, w)) :
    lookupK y t = w := by
  induction y generalizing i with
  | nil => simp at hi
  | cons r y ih =>
    obtain ⟨u, z⟩ := r
    rw [List.map_cons, List.nodup_cons] at hy
    cases i with
    | zero =>
      simp only [List.getElem?_cons_zero, Option.some.injEq, Prod.mk.injEq] at hi
      obtain ⟨rfl, rfl⟩ := hi
      simp [lookupK]
    | succ i =>
      rw [List.getElem?_cons_succ] at hi
      have hne : u ≠ t := by
        rintro rfl
        exact hy.1 (List.mem_map.mpr ⟨_, List.mem_of_getElem? hi, rfl⟩)
      simp only [lookupK, if_neg hne]
      exact ih hy.2 hi

theorem twoWay_kept {A : Series} (hA : (A.map Prod.fst).Nodup) {P : Int} {thr : ℚ} (hthr : 0 < thr) {L : Int}
    (hL : L ∈ A.map Prod.fst) :
    verdictAt ((A.map Prod.fst).zip (twoWayWindowFilter A P thr)) L = true ↔
      ∀ v q, lookupK A L = some v → IsQuantile (valids (A.map Prod.snd)) (99/100) q → q ≠ 0 →
        ¬ (FarFromMedian (present A (L - P) L) v (thr * |q|) ∧ FarFromMedian (present A L (L + P)) v (thr * |q|)) := by
  obtain ⟨⟨t, w⟩, hmem, rfl⟩ := List.mem_map.mp hL
  obtain ⟨i, hi⟩ := List.getElem?_of_mem hmem
  rw [verdictAt_zip hA hi, lookupK_row hA hi]
  have hlen : i < (twoWayWindowFilter A P thr).length := by
    rw [C14_length]
    exact (List.getElem?_eq_some_iff.mp hi).1
  have hbool : (twoWayWindowFilter A P thr)[i]? = some true ↔ ¬ (twoWayWindowFilter A P thr)[i]? = some false := by
    rw [List.getElem?_eq_getElem hlen]
    cases (twoWayWindowFilter A P thr)[i] <;> simp
  simp only [isQuantile_iff (q := 99/100) (by norm_num) (by norm_num)]
  by_cases hd : ∀ q, quantile (valids (A.map Prod.snd)) (99/100) = some q → q = 0
  · have h1 := C14_degenerate A P hthr (fun q h => hd q ((isQuantile_iff (by norm_num) (by norm_num)).mp h)) _ (List.getElem_mem hlen)
    rw [List.getElem?_eq_getElem hlen, h1]
    simp only [true_iff]
    intro v q _ hq hne
    exact absurd (hd q hq) hne
  · push Not at hd
    obtain ⟨q, hq, hne⟩ := hd
    rw [hbool, C14_rejects_iff A P hthr hne ((isQuantile_iff (by norm_num) (by norm_num)).mpr hq) hi]
    constructor
    · intro hno v q' hv hq' _ hfar
      rw [hq] at hq'
      cases hq'
      exact hno ⟨v, hv, hfar⟩
    · rintro hall ⟨v, hv, hfar⟩
      exact hall v q hv hq hne hfar

theorem verdictAt_limit (lim : Cell) (B : Series) (L : Int) :
    verdictAt ((B.map Prod.fst).zip ((B.map Prod.snd).map fun c => cellCmp (fun a b => decide (a ≥ b)) c lim)) L = true ↔
      ∃ w l, lookupK B L = some w ∧ lim = some l ∧ l ≤ w := by
  induction B with
  | nil => simp [verdictAt, lookupK]
  | cons r B ih =>
    obtain ⟨u, z⟩ := r
    simp only [List.map_cons, List.zip_cons_cons, verdictAt, lookupK]
    by_cases hu : u = L
    · rw [if_pos hu, if_pos hu]
      cases z <;> cases lim <;> simp [cellCmp]
    · rw [if_neg hu, if_neg hu, ih]

theorem insolation_kept {B : Series} {q : ℚ} {L : Int} :
    (∃ m, (insolationFilter (B.map Prod.snd) q).map (onRows B) = .ok m ∧ verdictAt m L = true) ↔
      0 ≤ q ∧ q ≤ 1 ∧ ∃ w lim, lookupK B L = some w ∧ IsQuantile (valids (B.map Prod.snd)) q lim ∧ lim ≤ w := by
  unfold insolationFilter
  by_cases hq : q < 0 ∨ 1 < q
  · rw [if_pos hq]
    simp only [Except.map]
    constructor
    · rintro ⟨_, h, -⟩; cases h
    · rintro ⟨h0, h1, -⟩
      rcases hq with hq | hq <;> linarith
  · rw [if_neg hq]
    push Not at hq
    simp only [Except.map, Except.ok.injEq, exists_eq_left', onRows, verdictAt_limit, isQuantile_iff hq.1 hq.2]
    exact ⟨fun h => ⟨hq.1, hq.2, h⟩, fun h => h.2.2⟩

theorem stable_paramsAgg (c : Case) (d : FilterDict FVal) :
    StableOut c fun v : TA Loc YoYResult σ => FillEq d v.paramsAgg := by
  constructor
  · rintro s e h - -; cases c <;> exact h
  · intro s e h he _; cases c <;> exact h.trans he
  · rintro s f h -; cases c <;> exact h

theorem fillEq_kwargs {d d' : FilterDict FVal} (h : FillEq d d') {name kw : String}
    (hg : d.items.get? name = some (.kwargs kw)) : d'.items.get? name = some (.kwargs kw) := by
  have := h name
  rw [hg] at this
  cases hd : d'.items.get? name with
  | none => rw [hd] at this; cases this
  | some v =>
    rw [hd] at this
    cases v <;> simp_all [normV]

theorem fillEq_adHoc {d d' : FilterDict FVal} (h : FillEq d d') {t : Int} (hd : Spec.AdHocAccepts d t) :
    Spec.AdHocAccepts d' t := by
  intro m' hm' b hb
  have := h "ad_hoc_filter"
  rw [hm'] at this
  cases hg : d.items.get? "ad_hoc_filter" with
  | none => rw [hg] at this; cases this
  | some v =>
    rw [hg] at this
    cases v with
    | mask m =>
      simp only [Option.map_some, normV, Option.some.injEq, FVal.mask.injEq] at this
      have h1 := maskGet_fill m t
      rw [this, maskGet_fill, hb] at h1
      cases hb' : maskGet m t with
      | none => rw [hb'] at h1; cases h1
      | some b' =>
        rw [hb'] at h1
        have := hd m hg b' hb'
        subst this
        cases b with
        | none => simp at h1
        | some b => simpa using h1
    | _ => simp [normV] at this

theorem Kept.fill {d d' : FilterDict FVal} (h : FillEq d d') {A B : Series} {L : Int} (hk : Spec.Kept k d A B L) :
    Spec.Kept k d' A B L :=
  ⟨hk.listed, fun kw hg => hk.window kw (fillEq_kwargs h.symm hg), fun kw hg => hk.insolation kw (fillEq_kwargs h.symm hg),
    fun kw hg => hk.hampel kw (fillEq_kwargs h.symm hg), fun kw hg => hk.tukey kw (fillEq_kwargs h.symm hg),
    fillEq_adHoc h hk.adHoc⟩

/-- the filter of aggregates -/
theorem aggregated_kept {env : Env Loc YoYResult σ} {A B : Series} {u v : TA Loc YoYResult σ}
    (hA : (A.map Prod.fst).Nodup) (hthr : ∀ kw, 0 < (k.twoWay kw).2)
    (hin : (u.out c).insolation = some B) (h : aggregatedFilter (degradationEnv n k env) A c u = (.ok (), v)) :
    ∃ mask, (v.out c).maskAgg = some mask ∧ ∀ L, verdictAt mask L = true ↔ Spec.Kept k u.paramsAgg A B L := by
  obtain ⟨mask, hm, hc⟩ := C53_aggregated hin h
  refine ⟨mask, hm, fun L => ?_⟩
  rw [hc]
  have ok : ∀ {m : BMask} {P : Prop}, (verdictAt m L = true ↔ P) →
      ((∃ m', (.ok m : Except PyErr BMask) = .ok m' ∧ verdictAt m' L = true) ↔ P) := by
    intro m P hP
    simp [hP]
  constructor
  · rintro ⟨hL, hap, had⟩
    refine ⟨hL, fun kw hg => ?_, fun kw hg => ?_, fun kw hg => ?_, fun kw hg => ?_, had⟩
    · exact (ok (twoWay_kept hA (hthr kw) hL)).mp (hap _ (.twoWay hg))
    · exact insolation_kept.mp (hap _ (.insolation hg))
    · exact (ok Iff.rfl).mp (hap _ (.hampel hg))
    · exact (ok Iff.rfl).mp (hap _ (.tukey hg))
  · intro hk
    refine ⟨hk.listed, fun r hr => ?_, hk.adHoc⟩
    cases hr with
    | twoWay hg => exact (ok (twoWay_kept hA (hthr _) hk.listed)).mpr (hk.window _ hg)
    | insolation hg => exact insolation_kept.mpr (hk.insolation _ hg)
    | hampel hg => exact (ok Iff.rfl).mpr (hk.hampel _ hg)
    | tukey hg => exact (ok Iff.rfl).mpr (hk.tukey _ hg)

theorem finish_filter {env : Env Loc YoYResult σ} {N I : Series} {u v : TA Loc YoYResult σ}
    (h : finish env N I c u = (.ok (), v)) :
    ∃ s1, filter env N c u = (.ok (), s1) ∧ (v.out c).mask = (s1.out c).mask := by
  unfold finish at h
  replace h := bind_ok.mp h
  obtain ⟨_, s1, h1, h⟩ := h
  replace h := bind_ok.mp h
  obtain ⟨_, _, h0, h⟩ := h
  cases h0
  replace h := bind_ok.mp h
  obtain ⟨mask, _, h2, h⟩ := h
  obtain ⟨em, rfl⟩ := attr_ok h2
  replace h := bind_ok.mp h
  obtain ⟨xe, _, he, h⟩ := h
  obtain ⟨ge, rfl⟩ := call_ok he
  obtain rfl := boolIndex_ok ge
  replace h := bind_ok.mp h
  obtain ⟨xi, _, hi, h⟩ := h
  obtain ⟨gi, rfl⟩ := call_ok hi
  obtain rfl := boolIndex_ok gi
  replace h := bind_ok.mp h
  obtain ⟨r, _, h3, h⟩ := h
  obtain ⟨-, rfl⟩ := call_ok h3
  replace h := bind_ok.mp h
  obtain ⟨_, s2, h4, h⟩ := h
  replace h := bind_ok.mp h
  obtain ⟨_, s3, h5, h⟩ := h
  replace h := bind_ok.mp h
  obtain ⟨_, _, h0, h⟩ := h
  cases h0
  replace h := bind_ok.mp h
  obtain ⟨maskAgg, _, h6, h⟩ := h
  obtain ⟨ea, rfl⟩ := attr_ok h6
  replace h := bind_ok.mp h
  obtain ⟨xp, _, hp', h⟩ := h
  obtain ⟨gp, rfl⟩ := call_ok hp'
  obtain rfl := boolIndex_ok gp
  replace h := bind_ok.mp h
  obtain ⟨_, s4, h7, h⟩ := h
  replace h := bind_ok.mp h
  obtain ⟨xq, _, hq', h⟩ := h
  obtain ⟨gq, rfl⟩ := call_ok hq'
  obtain rfl := boolIndex_ok gq
  cases h7
  cases h
  refine ⟨_, h1, ?_⟩
  rw [em]
  have hs : (s2.out c).mask = some mask := by cases h4; rw [← em]; cases c <;> rfl
  have := aggregatedFilter_mask (env := env) (s := s2) r.1 (some mask) hs
  unfold KeepsAt at this
  rw [h5] at this
  cases c <;> exact this

theorem finish_aggregated {env : Env Loc YoYResult σ} {N I : Series} {u v : TA Loc YoYResult σ}
    (h : finish (degradationEnv n k env) N I c u = (.ok (), v)) :
    ∃ s2 s3 mask, (v.out c).mask = some mask ∧ FillEq u.paramsAgg s2.paramsAgg ∧
      (s2.out c).insolation = some (resampleSum (select I mask) k.aggFreq) ∧
      aggregatedFilter (degradationEnv n k env) (aggregateNorm k.aggFreq (select N mask) (select I mask)).1 c s2 = (.ok (), s3) ∧
      (v.out c).maskAgg = (s3.out c).maskAgg := by
  obtain ⟨s0, k0, k1⟩ := finish_filter h
  unfold finish at h
  replace h := bind_ok.mp h
  obtain ⟨_, s1, h1, h⟩ := h
  rw [h1] at k0
  cases k0
  have hp := filter_keeps (env := degradationEnv n k env) (stable_paramsAgg c u.paramsAgg) (fun _ => rfl) N
  unfold KeepsAt at hp
  rw [h1] at hp
  replace h := bind_ok.mp h
  obtain ⟨_, _, h0, h⟩ := h
  cases h0
  replace h := bind_ok.mp h
  obtain ⟨mask, _, h2, h⟩ := h
  obtain ⟨em, rfl⟩ := attr_ok h2
  replace h := bind_ok.mp h
  obtain ⟨xe, _, he, h⟩ := h
  obtain ⟨ge, rfl⟩ := call_ok he
  obtain rfl := boolIndex_ok ge
  replace h := bind_ok.mp h
  obtain ⟨xi, _, hi, h⟩ := h
  obtain ⟨gi, rfl⟩ := call_ok hi
  obtain rfl := boolIndex_ok gi
  replace h := bind_ok.mp h
  obtain ⟨r, _, h3, h⟩ := h
  cases h3
  replace h := bind_ok.mp h
  obtain ⟨_, s2, h4, h⟩ := h
  replace h := bind_ok.mp h
  obtain ⟨_, s3, h5, h⟩ := h
  replace h := bind_ok.mp h
  obtain ⟨_, _, h0, h⟩ := h
  cases h0
  replace h := bind_ok.mp h
  obtain ⟨maskAgg, _, h6, h⟩ := h
  obtain ⟨ea, rfl⟩ := attr_ok h6
  replace h := bind_ok.mp h
  obtain ⟨xp, _, hp', h⟩ := h
  obtain ⟨gp, rfl⟩ := call_ok hp'
  obtain rfl := boolIndex_ok gp
  replace h := bind_ok.mp h
  obtain ⟨_, s4, h7, h⟩ := h
  replace h := bind_ok.mp h
  obtain ⟨xq, _, hq', h⟩ := h
  obtain ⟨gq, rfl⟩ := call_ok hq'
  obtain rfl := boolIndex_ok gq
  cases h7
  cases h
  refine ⟨s2, _, mask, k1.trans em, ?_, ?_, h5, ?_⟩
  · cases h4; cases c <;> exact hp
  · cases h4; cases c <;> rfl
  · cases c <;> rfl

/-- **C134 (samples).** Of every analysis that gets through its preprocessing the stored filter accepts exactly the samples of the
normalized energy with: normalized energy, irradiance and cell temperature strictly inside their limits, no clipping, the hour angle
inside its limits, a clear sky, and no objection from the user's own mask – each of these as far as it is enabled. -/
theorem C134_samples (h : preprocess (skyEnv n k x rest) c s = (.ok (), s')) :
    ∃ g P N I mask, Spec.irradiance s' c = some g ∧ Spec.modelPower n s' c = some P ∧
      Normalized n s.pvEnergy P g s.powerExpected.isNone N I ∧ (s'.out c).mask = some mask ∧
      ∀ t, verdictAt mask t = true ↔ Spec.Used n k x s' c s.params N t := by
  obtain ⟨u, N, I, g, P, h1, h2, h3, h4, h5⟩ := preprocess_normalized h
  have hs := finish_keeps (env := skyEnv n k x rest) (stable_used c u) ⟨rfl, rfl, rfl, rfl, rfl, rfl⟩ N I
  unfold KeepsAt skyEnv at hs
  rw [h1] at hs
  obtain ⟨s1, e0, e1⟩ := finish_filter h1
  obtain ⟨mask, hm, hu⟩ := filter_used (x := x) (rest := rest) e0 hs
  rw [h2.1] at hu
  exact ⟨g, P, N, I, mask, h3, h4, h5, e1.trans hm, hu⟩

/-- the accepted rows of a series -/
def Spec.acceptedRows (I : Series) (mask : BMask) : Series := I.filter fun r => verdictAt mask r.1

/-- `B` has one row, in order of time, for every period of length `f`, counted from midnight of the day of the earliest row of `x`,
from that row to the last; it holds the sum of the values in the period, missing ones skipped -/
structure Spec.PeriodSums (x : Series) (f : Int) (B : Series) : Prop where
  sorted : (B.map Prod.fst).Pairwise (· < ·)
  periods : ∀ r0 ∈ x, (∀ r ∈ x, r0.1 ≤ r.1) → ∀ m, dayNs ∣ m → m ≤ r0.1 → r0.1 < m + dayNs →
    ∀ L, L ∈ B.map Prod.fst ↔ f ∣ L - m ∧ r0.1 < L + f ∧ ∃ r ∈ x, L ≤ r.1
  sums : ∀ L v, (L, v) ∈ B → v = some ((rowsIn x L f).map fun r => r.2.getD 0).sum

theorem resampleSum_periodSums {x : Series} {f : Int} (hf : 0 < f) : Spec.PeriodSums x f (resampleSum x f) := by
  refine ⟨?_, fun r0 h0 hmin m hm hm0 hm1 L => ?_, fun L v h => resampleSum_value hf h⟩
  · rw [resampleSum_labels]; exact C110_chronological hf
  · rw [resampleSum_labels, C110_periods hf (r0 := ⟨r0.1, r0.2, none⟩) (List.mem_map.mpr ⟨r0, h0, rfl⟩) _ hm hm0 hm1]
    · simp
    · intro r hr
      obtain ⟨q, hq, rfl⟩ := List.mem_map.mp hr
      exact hmin q hq

/-- **C134 (filter of aggregates).** The stored filter of aggregates accepts exactly the periods that are not far from the medians of
the days before and of the days after, have enough insolation, are no outlier by Hampel's and Tukey's rules and meet no objection
from the user's own mask – each as far as it is enabled. These rules see all periods with accepted samples (`A`), with the mean of the
accepted normalized energies weighted with insolation, and `B`, the insolation of the accepted samples of each period. -/
theorem C134_kept (h : preprocess (skyEnv n k x rest) c s = (.ok (), s')) (hagg : 0 < k.aggFreq)
    (hthr : ∀ kw, 0 < (k.twoWay kw).2) :
    ∃ g P N I mask maskAgg A B, Spec.irradiance s' c = some g ∧ Spec.modelPower n s' c = some P ∧
      Normalized n s.pvEnergy P g s.powerExpected.isNone N I ∧
      (s'.out c).mask = some mask ∧ (s'.out c).maskAgg = some maskAgg ∧ (A.map Prod.fst).Pairwise (· < ·) ∧
      (∀ r0 ∈ N, verdictAt mask r0.1 = true → (∀ r ∈ N, verdictAt mask r.1 = true → r0.1 ≤ r.1) →
        ∀ m, dayNs ∣ m → m ≤ r0.1 → r0.1 < m + dayNs → ∀ L e, (L, some e) ∈ A ↔
          k.aggFreq ∣ L - m ∧ Spec.insolationIn N I mask L k.aggFreq ≠ 0 ∧
            e = Spec.weightedIn N I mask L k.aggFreq / Spec.insolationIn N I mask L k.aggFreq) ∧
      Spec.PeriodSums (Spec.acceptedRows I mask) k.aggFreq B ∧
      (∀ L, verdictAt maskAgg L = true ↔ Spec.Kept k s.paramsAgg A B L) ∧
      (Spec.FitsDays k.aggFreq → ∃ perf, (s'.out c).performance = some perf ∧ ∀ L e, (L, some e) ∈ perf ↔
        (L, some e) ∈ A ∧ Spec.Kept k s.paramsAgg A B L) := by
  obtain ⟨u, N, I, g, P, h1, h2, h3, h4, h5⟩ := preprocess_normalized h
  obtain ⟨s2, s3, mask, g1, g2, g3, g4, g5⟩ := finish_aggregated h1
  have hA : ((aggregateNorm k.aggFreq (select N mask) (select I mask)).1.map Prod.fst).Pairwise (· < ·) := by
    have hkeys : ((aggregateNorm k.aggFreq (select N mask) (select I mask)).1).map Prod.fst =
        (aggregationInsol (insolRows (select N mask) (select I mask)) k.aggFreq).map Prod.fst := by
      unfold aggregateNorm finiteCells
      rw [List.map_map]
      rfl
    rw [hkeys]
    exact C110_chronological hagg
  obtain ⟨ma, hma, hK⟩ := aggregated_kept (hA.imp fun h => ne_of_lt h) hthr g3 g4
  have hK' : ∀ L, verdictAt ma L = true ↔ Spec.Kept k s.paramsAgg (aggregateNorm k.aggFreq (select N mask) (select I mask)).1
      (resampleSum (select I mask) k.aggFreq) L := by
    intro L
    rw [hK]
    rw [h2.2] at g2
    exact ⟨Kept.fill g2.symm, Kept.fill g2⟩
  refine ⟨g, P, N, I, mask, ma, (aggregateNorm k.aggFreq (select N mask) (select I mask)).1,
    resampleSum (select I mask) k.aggFreq, h3, h4, h5, g1, g5.trans hma, hA, ?_, resampleSum_periodSums hagg, hK', ?_⟩
  · intro r0 hr0 hv0 hmin m hm hm0 hm1 L e
    exact mem_aggregateNorm hagg hr0 hv0 hmin hm hm0 hm1 L e
  · intro hfit
    obtain ⟨s1, mask', maskAgg, perf, f1, f2, e1, e2, e3, -, -, e6⟩ := finish_accepted hagg hfit h1
    rw [g1] at e1
    cases e1
    rw [g5.trans hma] at e2
    cases e2
    refine ⟨perf, e3, fun L e => ?_⟩
    rw [e6, hK']

/-- **C134 (defaults).** A fresh analysis with its default filters accepts a sample of a sensor analysis exactly if its normalized energy
exceeds 0.01, its irradiance lies strictly between 200 and 1200, its cell temperature strictly between -50 and 110 (not asked of an
analysis with expected power and no temperature), and no clipping is found there. -/
theorem C134_default {pvPower : Option Series} {pvEnergy : Series} {poa tcell tamb expected : Option Series} {daily : Bool}
    (hk : k.normalized "" = (some (.fin (1/100)), none) ∧ k.poa "" = (.fin 200, .fin 1200) ∧ k.tcell "" = (.fin (-50), .fin 110))
    (h : preprocess (skyEnv n k x rest) .sensor (init pvPower pvEnergy poa tcell tamb expected daily) = (.ok (), s')) :
    ∃ g P N I mask, s'.poa = some g ∧ Spec.modelPower n s' .sensor = some P ∧
      Normalized n pvEnergy P g expected.isNone N I ∧ s'.sensor.mask = some mask ∧
      ∀ t, verdictAt mask t = true ↔
        (∃ e, lookupK N t = some e ∧ 1/100 < e) ∧ (∃ w, lookupK g t = some w ∧ 200 < w ∧ w < 1200) ∧
        ((expected.isSome → tcell ≠ none) → ∃ y θ, s'.tcell = some y ∧ lookupK y t = some θ ∧ -50 < θ ∧ θ < 110) ∧
        ∃ p v, s'.pvPower = some p ∧ clipVerdicts n.predict p (n.clipArgs "") = .ok v ∧
          verdictAt ((p.map Prod.fst).zip v) t = true := by
  obtain ⟨hk1, hk2, hk3⟩ := hk
  obtain ⟨g, P, N, I, mask, h1, h2, h3, h4, h5⟩ := C134_samples h
  refine ⟨g, P, N, I, mask, h1, h2, h3, h4, fun t => ?_⟩
  rw [h5]
  have below : ∀ a b : ℚ, Below (.fin a) (.fin b) ↔ a < b := fun a b => by
    rw [← lt_iff_below]; simp [Flt.lt]
  have hpos : ∀ a : ℚ, Below (.fin a) .pinf := fun a => (lt_iff_below _ _).mp rfl
  have hp : (init pvPower pvEnergy poa tcell tamb expected daily : TA Loc YoYResult σ).params.items =
      if expected.isSome ∧ tcell = none then Dict.del defaultFilterParams "tcell_filter" else defaultFilterParams := rfl
  have q1 : (init pvPower pvEnergy poa tcell tamb expected daily : TA Loc YoYResult σ).params.items.get? "normalized_filter" =
      some (.kwargs "") := by rw [hp]; split_ifs <;> rfl
  have q2 : (init pvPower pvEnergy poa tcell tamb expected daily : TA Loc YoYResult σ).params.items.get? "poa_filter" =
      some (.kwargs "") := by rw [hp]; split_ifs <;> rfl
  have q3 : (init pvPower pvEnergy poa tcell tamb expected daily : TA Loc YoYResult σ).params.items.get? "tcell_filter" =
      if expected.isSome ∧ tcell = none then none else some (.kwargs "") := by rw [hp]; split_ifs <;> rfl
  have q4 : (init pvPower pvEnergy poa tcell tamb expected daily : TA Loc YoYResult σ).params.items.get? "clip_filter" =
      some (.kwargs "") := by rw [hp]; split_ifs <;> rfl
  have q5 : (init pvPower pvEnergy poa tcell tamb expected daily : TA Loc YoYResult σ).params.items.get? "hour_angle_filter" =
      none := by rw [hp]; split_ifs <;> rfl
  have q6 : (init pvPower pvEnergy poa tcell tamb expected daily : TA Loc YoYResult σ).params.items.get? "sensor_clearsky_filter" =
      none := by rw [hp]; split_ifs <;> rfl
  have q7 : (init pvPower pvEnergy poa tcell tamb expected daily : TA Loc YoYResult σ).params.items.get? "ad_hoc_filter" =
      some .none := by rw [hp]; split_ifs <;> rfl
  constructor
  · rintro ⟨-, a1, a2, a3, a4, -, -, -⟩
    have b1 := a1 _ q1
    have b2 := a2 _ q2
    rw [hk1] at b1
    rw [hk2] at b2
    obtain ⟨e, he, he1, -⟩ := b1
    obtain ⟨g', hg', w, hw, hw1, hw2⟩ := b2
    rw [h1] at hg'
    cases hg'
    refine ⟨⟨e, he, (below _ _).mp he1⟩, ⟨w, hw, (below _ _).mp hw1, (below _ _).mp hw2⟩, fun hx => ?_, a4 _ q4⟩
    have b3 := a3 "" (by rw [q3, if_neg (fun hc => hx hc.1 hc.2)])
    rw [hk3] at b3
    obtain ⟨y, hy, θ, hθ, hθ1, hθ2⟩ := b3
    exact ⟨y, θ, hy, hθ, (below _ _).mp hθ1, (below _ _).mp hθ2⟩
  · rintro ⟨⟨e, he, he1⟩, ⟨w, hw, hw1, hw2⟩, hT, hC⟩
    refine ⟨?_, fun kw hg => ?_, fun kw hg => ?_, fun kw hg => ?_, fun kw hg => ?_, fun kw hg => ?_, ?_, ?_⟩
    · by_contra hcon
      rw [lookupK_not_mem hcon] at he
      cases he
    · rw [q1] at hg
      cases hg
      rw [hk1]
      exact ⟨e, he, (below _ _).mpr he1, hpos e⟩
    · rw [q2] at hg
      cases hg
      rw [hk2]
      exact ⟨g, h1, w, hw, (below _ _).mpr hw1, (below _ _).mpr hw2⟩
    · rw [q3] at hg
      split_ifs at hg with hx
      cases hg
      rw [hk3]
      obtain ⟨y, θ, hy, hθ, hθ1, hθ2⟩ := hT fun a b => hx ⟨a, b⟩
      exact ⟨y, hy, θ, hθ, (below _ _).mpr hθ1, (below _ _).mpr hθ2⟩
    · rw [q4] at hg
      cases hg
      exact hC
    · rw [q5] at hg
      cases hg
    · rintro name kw (⟨-, hc⟩ | rfl) hg
      · cases hc
      · rw [q6] at hg
        cases hg
    · intro m hm
      rw [q7] at hm
      cases hm

/-! ## examples -/

/-- clear sky within 15 %, hour angles up to 30 degrees; the sun moves 15 degrees in an hour -/
def exSky : SkyArgs Unit where
  clearsky _ := .csi (15/100)
  detect _ := []
  hourAngle _ := (.fin (-30), .fin 30)
  angle _ t := .fin (((t % dayNs : Int) : ℚ) / (240 * 1000000000) - 180)

/-- the two days of `C114` with a clear-sky irradiance that is too high in the first half, with both optional filters -/
def exSkyRun : Option (TA Unit YoYResult Unit × TA Unit YoYResult Unit) :=
  (construct exTwoDays : Except PyErr (TA Unit YoYResult Unit)).toOption.bind fun s0 =>
    let s : TA Unit YoYResult Unit := { s0 with
      location := some (some ())
      poaCs := some (some ((intRange 0 15).map fun i => (i * exHalf, some (if i < 5 then 2000 else 1100))))
      params := { s0.params with
        items := (s0.params.items.set "sensor_clearsky_filter" (.kwargs "")).set "hour_angle_filter" (.kwargs "") } }
    match preprocess (skyEnv { exPlate with freq := fun _ => some exHalf } { exKeywords with aggFreq := dayNs } exSky
        exNothing) .sensor s with
    | (.ok (), s') => some (s, s')
    | _ => none

theorem exSkyRun_spec {s s' : TA Unit YoYResult Unit} (h : exSkyRun = some (s, s')) :
    preprocess (skyEnv { exPlate with freq := fun _ => some exHalf } { exKeywords with aggFreq := dayNs } exSky
      exNothing) .sensor s = (.ok (), s') := by
  unfold exSkyRun at h
  cases hc : (construct exTwoDays : Except PyErr (TA Unit YoYResult Unit)).toOption with
  | none => rw [hc] at h; cases h
  | some s0 =>
    rw [hc] at h
    simp only [Option.bind_some] at h
    split at h
    · rename_i u hu
      simp only [Option.some.injEq, Prod.mk.injEq] at h
      obtain ⟨rfl, rfl⟩ := h
      exact hu
    · cases h

/-- with both optional filters only the reading at 35 o'clock is left: those of the first 14 hours differ from the clear sky, the
others have the sun too low, the first has no normalized energy -/
example : ∃ (n : Numeric) (k : Keywords) (x : SkyArgs Unit) (rest : Env Unit YoYResult Unit) (s s' : TA Unit YoYResult Unit)
    (mask : BMask), preprocess (skyEnv n k x rest) .sensor s = (.ok (), s') ∧ s'.sensor.mask = some mask ∧
    0 < k.aggFreq ∧ Spec.FitsDays k.aggFreq ∧ (∀ kw, 0 < (k.twoWay kw).2) ∧
    mask = (intRange 0 15).map fun i => (i * exHalf, decide (i = 10)) := by
  have hc : exSkyRun.elim none (fun x => x.2.sensor.mask) = some ((intRange 0 15).map fun i => (i * exHalf, decide (i = 10))) := by
    decide +kernel
  cases hr : exSkyRun with
  | none => rw [hr] at hc; cases hc
  | some y =>
    rw [hr] at hc
    obtain ⟨s, s'⟩ := y
    exact ⟨_, _, _, _, s, s', _, exSkyRun_spec hr, hc, by decide, Or.inl (by decide), fun kw => by
      show (0 : ℚ) < 3/100
      norm_num, rfl⟩

/-- the two days as stored by the constructor -/
def exInputs : Option (TA Unit YoYResult Unit) := (construct exTwoDays : Except PyErr (TA Unit YoYResult Unit)).toOption

/-- a fresh analysis of them -/
def exDefaultRun (s : TA Unit YoYResult Unit) : Except PyErr Unit × TA Unit YoYResult Unit :=
  preprocess (skyEnv { exPlate with freq := fun _ => some exHalf } { exKeywords with aggFreq := dayNs } exSky
    exNothing) .sensor (init s.pvPower s.pvEnergy s.poa s.tcell s.tamb s.powerExpected s.aggDaily)

/-- whether it runs -/
def exDefaultOk (s : TA Unit YoYResult Unit) : Bool := match (exDefaultRun s).1 with
  | .ok _ => true
  | .error _ => false

/-- with the default filters all readings are left but the first, without normalized energy, and the last, with an irradiance of
1200 -/
example : ∃ (n : Numeric) (k : Keywords) (x : SkyArgs Unit) (rest : Env Unit YoYResult Unit) (pvPower : Option Series)
    (pvEnergy : Series) (poa tcell tamb expected : Option Series) (daily : Bool) (s' : TA Unit YoYResult Unit)
    (mask : BMask),
    preprocess (skyEnv n k x rest) .sensor (init pvPower pvEnergy poa tcell tamb expected daily) = (.ok (), s') ∧
    s'.sensor.mask = some mask ∧
    (k.normalized "" = (some (.fin (1/100)), none) ∧ k.poa "" = (.fin 200, .fin 1200) ∧ k.tcell "" = (.fin (-50), .fin 110)) ∧
    mask = (intRange 0 15).map fun i => (i * exHalf, decide (0 < i ∧ i < 14)) := by
  have hc : (exInputs.elim (false, none) fun s => (exDefaultOk s, (exDefaultRun s).2.sensor.mask)) =
      (true, some ((intRange 0 15).map fun i => (i * exHalf, decide (0 < i ∧ i < 14)))) := by
    decide +kernel
  cases hr : exInputs with
  | none => rw [hr] at hc; cases hc
  | some s =>
    rw [hr, Option.elim, Prod.mk.injEq] at hc
    have h1 : (exDefaultRun s).1 = .ok () := by
      have := hc.1
      unfold exDefaultOk at this
      split at this
      · rename_i h; exact h
      · cases this
    exact ⟨_, _, _, _, _, _, _, _, _, _, _, _, _, Prod.ext h1 rfl, hc.2, ⟨rfl, rfl, rfl⟩, rfl⟩

end Verif.Chains
