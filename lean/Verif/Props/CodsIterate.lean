import Verif.Props.CodsFlat
import Verif.Props.CodsRevise

/-! # Property C142 (what the iterations of the CODS decomposition do) -/

namespace Verif.Cods

open Verif Verif.Spec

/-! ## Specification -/

/-- the list of cells for `n` days that has exactly the values `F` -/
def Spec.Has (x : List Cell) (n : Nat) (F : Nat → ℚ → Prop) : Prop := x.length = n ∧ ∀ i v, cellAt x i = some v ↔ F i v

/-- the values `F` gives to days, in any order -/
def Spec.Values (F : Nat → ℚ → Prop) (l : List ℚ) : Prop :=
  ∃ ds : List (Nat × ℚ), (ds.map Prod.fst).Nodup ∧ (∀ i v, (i, v) ∈ ds ↔ F i v) ∧ l = ds.map Prod.snd

/-- the mean of the values `F` gives to days -/
def Spec.MeanOver (F : Nat → ℚ → Prop) (m : ℚ) : Prop := ∃ l, Spec.Values F l ∧ l ≠ [] ∧ m * l.length = l.sum

/-- what the decomposition has between two iterations: components, table of the last filter run, degradation rate, and the two
sensitivities -/
structure Spec.Parts where
  trend : List Cell
  seasonal : List Cell
  ratio : List Cell
  table : Option KalmanOut
  rate : ℚ
  clean : ℚ
  prune : ℚ

/-- the product of the components on a day -/
def Spec.Modelled (p : Spec.Parts) (i : Nat) (v : ℚ) : Prop :=
  ∃ t s r, cellAt p.trend i = some t ∧ cellAt p.seasonal i = some s ∧ cellAt p.ratio i = some r ∧ v = t * s * r

/-- the residual of a day -/
def Spec.Residual (pi : List Cell) (p : Spec.Parts) (i : Nat) (v : ℚ) : Prop :=
  ∃ y m, cellAt pi i = some y ∧ Spec.Modelled p i m ∧ m ≠ 0 ∧ v = y / m

/-- the error of the components: root of the mean squared distance of the index from the product, shifted by the mean residual -/
def Spec.ModelError (sqrt : ℚ → ℚ) (pi : List Cell) (p : Spec.Parts) (err : ℚ) : Prop :=
  ∃ sh m, Spec.MeanOver (Spec.Residual pi p) sh ∧
    Spec.MeanOver (fun i v => ∃ y x, cellAt pi i = some y ∧ Spec.Modelled p i x ∧ v = (y - x * sh) ^ 2) m ∧ err = sqrt m

/-- the error before the first iteration: that of the model one -/
def Spec.FirstError (sqrt : ℚ → ℚ) (pi : List Cell) (err : ℚ) : Prop :=
  ∃ m, Spec.MeanOver (fun i v => ∃ y, cellAt pi i = some y ∧ v = (y - 1) ^ 2) m ∧ err = sqrt m

/-- the events found in a series: the best days of the islands of days whose nine-day median rises by more than the upper quartile
of the sizes of all changes plus `tuner` times the distance of the quartiles -/
def Spec.Found (fwd : Bool) (tuner : ℚ) (x : List Cell) (ev : List Bool) : Prop :=
  ev.length = x.length ∧ ∃ (cand : Nat → Bool) (rise : Nat → Cell) (sizes : List ℚ) (L : List (Nat × Nat)),
    (∀ i d, rise i = some d ↔ Spec.Change fwd 9 x i d) ∧ Spec.ChangeSizes fwd 9 x sizes ∧
    (∀ i, cand i = true ↔ ∃ d q1 q3, rise i = some d ∧ IsQuantile sizes (1 / 4) q1 ∧ IsQuantile sizes (3 / 4) q3 ∧
      q3 + tuner * (q3 - q1) < d) ∧
    Spec.Islands cand 5 (x.length - 5) 5 L ∧ ∀ j, getB ev j = true ↔ Spec.Event rise 5 L j

/-- iteration `n` fits a component: the parts before and after. `perfect` is whether perfect cleaning is assumed. -/
inductive Spec.Fit (e : DecompEnv) (fuel : Nat) (o : DecompOpts) (day0 : Int) (pi : List Cell) (n : Nat) (perfect : Bool)
    (a : Spec.Parts) : Comp → Spec.Parts → Prop
  /-- the filter gets index / trend / season / mean residual, the events (from the third iteration on, those of the last table and
  those found in the residuals, with adjusted sensitivities) and the options -/
  | soiling {sh : Cell} {zs : List Cell} {ev : List Bool} {clean prune : ℚ} {k : KalmanOut}
      (shift : (n = 1 ∧ sh = some 1) ∨ (1 < n ∧ ∀ v, sh = some v ↔ Spec.MeanOver (Spec.Residual pi a) v))
      (signal : Spec.Has zs pi.length fun i v => ∃ y t s m, cellAt pi i = some y ∧ cellAt a.trend i = some t ∧
        cellAt a.seasonal i = some s ∧ sh = some m ∧ t ≠ 0 ∧ s ≠ 0 ∧ m ≠ 0 ∧ v = y / (t * s * m))
      (events : (n ≤ 2 ∧ Spec.Found o.fwd o.cleaning pi ev ∧ clean = a.clean ∧ prune = a.prune) ∨
        (2 < n ∧ clean = a.clean * (6 / 5) ∧ prune = a.prune * (10 / 11) ∧ ∃ k0 res found, a.table = some k0 ∧
          Spec.Has res pi.length (Spec.Residual pi a) ∧ Spec.Found o.fwd clean res found ∧ ev.length = pi.length ∧
          ∀ i, getB ev i = true ↔ getB k0.events i = true ∨ getB found i = true))
      (run : kalmanSR { processNoise := o.processNoise, pruningIterations := o.pruningIterations, pruning := prune,
                        renorm := o.renorm, perfect := perfect, clip := o.clip, fwd := true } fuel zs (.series ev) = .ok k) :
      Spec.Fit e fuel o day0 pi n perfect a .SR ⟨a.trend, a.seasonal, k.ratio, some k, a.rate, clean, prune⟩
  /-- the season of index / ratio, made periodic; the trend stays -/
  | season {sig sc tr sea : List Cell} (signal : Spec.Has sig pi.length fun i v => ∃ y r, cellAt pi i = some y ∧
        cellAt a.ratio i = some r ∧ r ≠ 0 ∧ v = y / r)
      (stl : e.stl sig = .ok (sc, tr))
      (periodic : sea = (forcePeriodicity (((List.range pi.length).map fun i : Nat => day0 + (i : Int)).zip sc)
        ((List.range pi.length).map fun i : Nat => day0 + (i : Int))).map Prod.snd) (method : o.stl = false) :
      Spec.Fit e fuel o day0 pi n perfect a .SC ⟨a.trend, sea, a.ratio, a.table, a.rate, a.clean, a.prune⟩
  /-- the same with the degradation method `'STL'`: the trend is that of the season fit relative to its first day, the rate its
  year-on-year rate -/
  | seasonTrend {sig sc tr sea trend : List Cell} {rate : ℚ} (signal : Spec.Has sig pi.length fun i v => ∃ y r,
        cellAt pi i = some y ∧ cellAt a.ratio i = some r ∧ r ≠ 0 ∧ v = y / r)
      (stl : e.stl sig = .ok (sc, tr))
      (periodic : sea = (forcePeriodicity (((List.range pi.length).map fun i : Nat => day0 + (i : Int)).zip sc)
        ((List.range pi.length).map fun i : Nat => day0 + (i : Int))).map Prod.snd) (method : o.stl = true)
      (relative : Spec.Has trend pi.length fun i v => ∃ x y, cellAt tr i = some x ∧ cellAt tr 0 = some y ∧ y ≠ 0 ∧ v = x / y)
      (yoy : e.yoy trend = .ok rate) :
      Spec.Fit e fuel o day0 pi n perfect a .SC ⟨trend, sea, a.ratio, a.table, rate, a.clean, a.prune⟩
  /-- the year-on-year rate of index / season / ratio, and a straight line from one -/
  | degradation {sig trend : List Cell} {rate : ℚ} (signal : Spec.Has sig pi.length fun i v => ∃ y s r, cellAt pi i = some y ∧
        cellAt a.seasonal i = some s ∧ cellAt a.ratio i = some r ∧ s ≠ 0 ∧ r ≠ 0 ∧ v = y / (s * r))
      (yoy : e.yoy sig = .ok rate)
      (line : Spec.Has trend pi.length fun i v => i < pi.length ∧ v = 1 + (i : ℚ) * (rate / 36500)) :
      Spec.Fit e fuel o day0 pi n perfect a .Rd ⟨trend, a.seasonal, a.ratio, a.table, rate, a.clean, a.prune⟩

/-- the error has improved by less than the criterion, relative to the earlier one -/
def Spec.Little (crit : ℚ) (before now : Cell) : Prop :=
  ∃ p c, before = some p ∧ now = some c ∧ ((p = 0 ∧ 0 < c) ∨ (p ≠ 0 ∧ (p - c) / p < crit))

/-- perfect cleaning is no longer assumed after iteration `k`: at least one round is over, and half of the iterations are, or the
error has hardly improved over a round -/
def Spec.Enough (o : DecompOpts) (N : Nat) (err : List Cell) (k : Nat) : Prop :=
  N ≤ k ∧ (o.maxIterations ≤ 2 * k ∨ Spec.Little o.criterion (cellAt err (k - N)) (cellAt err k))

/-- the first such iteration -/
def Spec.FirstEnough (o : DecompOpts) (N : Nat) (err : List Cell) (k : Nat) : Prop :=
  Spec.Enough o N err k ∧ ∀ j, j < k → ¬Spec.Enough o N err j

/-- the call with the printed iterations `log`: the parts and errors after each iteration; `N` is the number of components -/
structure Spec.Run (e : DecompEnv) (fuel : Nat) (o : DecompOpts) (day0 : Int) (pi : List Cell) (N : Nat) (log : List (Comp × Bool))
    (ps : List Spec.Parts) (err : List Cell) : Prop where
  length : ps.length = log.length + 1 ∧ err.length = log.length + 1
  /-- at the start all components are one -/
  start : ps[0]? = some ⟨pi.map fun _ => some 1, pi.map fun _ => some 1, pi.map fun _ => some 1, none, 0, o.cleaning, o.pruning⟩
  /-- each iteration fits its component -/
  fits : ∀ (n : Nat) (c : Comp) (perfect : Bool), log[n]? = some (c, perfect) →
    ∃ a b, ps[n]? = some a ∧ ps[n + 1]? = some b ∧ Spec.Fit e fuel o day0 pi (n + 1) perfect a c b
  firstError : ∀ v, cellAt err 0 = some v ↔ Spec.FirstError e.sqrt pi v
  errors : ∀ (n : Nat) (b : Spec.Parts), ps[n + 1]? = some b → ∀ v, cellAt err (n + 1) = some v ↔ Spec.ModelError e.sqrt pi b v
  /-- perfect cleaning is assumed in an iteration unless it had been enough before -/
  perfect : ∀ (n : Nat) (c : Comp) (perfect : Bool), log[n]? = some (c, perfect) →
    (perfect = true ↔ ∀ k, k ≤ n → ¬Spec.Enough o N err k)
  /-- a later iteration has followed unless the error had hardly improved over a round begun after that change -/
  goes : ∀ c k, Spec.FirstEnough o N err c → c + N ≤ k → k < log.length →
    ¬Spec.Little o.criterion (cellAt err (k - N)) (cellAt err k)
  /-- it stops with the last iteration allowed or when the error has hardly improved over a round begun after that change -/
  stops : log.length = o.maxIterations ∨ (log.length < o.maxIterations ∧ ∃ c, Spec.FirstEnough o N err c ∧ c + N ≤ log.length ∧
    Spec.Little o.criterion (cellAt err (log.length - N)) (cellAt err log.length))

/-- the season fit returns a season and a trend for each day it gets -/
def Spec.envLengths (e : DecompEnv) : Prop := ∀ x s t, e.stl x = .ok (s, t) → s.length = x.length ∧ t.length = x.length

/-! ## Values and means -/

theorem values_perm {F : Nat → ℚ → Prop} {l l' : List ℚ} (h : Spec.Values F l) (h' : Spec.Values F l') : l.Perm l' := by
  obtain ⟨d, hd, hm, rfl⟩ := h
  obtain ⟨d', hd', hm', rfl⟩ := h'
  refine List.Perm.map _ ((List.perm_ext_iff_of_nodup hd.of_map hd'.of_map).mpr fun x => ?_)
  rw [hm x.1 x.2, hm' x.1 x.2]

theorem values_valids (x : List Cell) : Spec.Values (fun i v => cellAt x i = some v) (valids x) :=
  ⟨withPos x, withPos_fst_nodup _, fun _ _ => mem_withPos, (withPos_snd x).symm⟩

theorem values_congr {F G : Nat → ℚ → Prop} (h : ∀ i v, F i v ↔ G i v) {l : List ℚ} : Spec.Values F l ↔ Spec.Values G l := by
  unfold Spec.Values
  simp only [h]

theorem meanOver_congr {F G : Nat → ℚ → Prop} (h : ∀ i v, F i v ↔ G i v) {m : ℚ} : Spec.MeanOver F m ↔ Spec.MeanOver G m := by
  unfold Spec.MeanOver
  simp only [values_congr h]

theorem meanOver_cells {x : List Cell} {m : ℚ} : mean (valids x) = some m ↔ Spec.MeanOver (fun i v => cellAt x i = some v) m := by
  constructor
  · intro h
    obtain ⟨hn, hm⟩ := mean_some h
    refine ⟨_, values_valids x, hn, ?_⟩
    have : ((valids x).length : ℚ) ≠ 0 := by exact_mod_cast (List.length_pos_iff.mpr hn).ne'
    rw [hm, div_mul_cancel₀ _ this]
  · rintro ⟨l, hl, hn, hm⟩
    have hp := values_perm hl (values_valids x)
    have hn' : valids x ≠ [] := by
      intro hc
      rw [hc] at hp
      exact hn hp.eq_nil
    have : ((valids x).length : ℚ) ≠ 0 := by exact_mod_cast (List.length_pos_iff.mpr hn').ne'
    rw [hp.length_eq, hp.sum_eq] at hm
    cases hv : valids x with
    | nil => exact absurd hv hn'
    | cons y ys =>
      rw [hv] at hm this
      simp only [mean, Option.some.injEq]
      rw [← hm, mul_div_cancel_right₀ _ this]

/-- of a list with the values `F` the mean is that of the values -/
theorem mean_has {x : List Cell} {n : Nat} {F : Nat → ℚ → Prop} (h : Spec.Has x n F) {m : ℚ} :
    cellMean x = some m ↔ Spec.MeanOver F m := by
  unfold cellMean
  rw [meanOver_cells, meanOver_congr h.2]

/-! ## Arithmetic on days -/

theorem cellDiv_some {a b : Cell} {v : ℚ} : cellDiv a b = some v ↔ ∃ x y, a = some x ∧ b = some y ∧ y ≠ 0 ∧ v = x / y := by
  cases a with
  | none => simp [cellDiv]
  | some x =>
    cases b with
    | none => simp [cellDiv]
    | some y =>
      simp only [cellDiv]
      split_ifs with h
      · simp [h]
      · simp [h, eq_comm]

theorem cellOp_some {f : ℚ → ℚ → ℚ} {a b : Cell} {v : ℚ} :
    cellOp f a b = some v ↔ ∃ x y, a = some x ∧ b = some y ∧ v = f x y := by
  cases a <;> cases b <;> simp [cellOp, eq_comm]

theorem length_cellsDiv {a b : List Cell} {n : Nat} (ha : a.length = n) (hb : b.length = n) : (cellsDiv a b).length = n := by
  simp [cellsDiv, ha, hb]

theorem length_cellsMul {a b : List Cell} {n : Nat} (ha : a.length = n) (hb : b.length = n) : (cellsMul a b).length = n := by
  simp [cellsMul, ha, hb]

/-- the parts of a state of the loop -/
def partsOf (st : DecompState) : Spec.Parts := ⟨st.trend, st.seasonal, st.ratio, st.df, st.deg, st.cleaning, st.pruning⟩

/-- every component has a cell for each day -/
structure Lens (n : Nat) (st : DecompState) : Prop where
  trend : st.trend.length = n
  seasonal : st.seasonal.length = n
  ratio : st.ratio.length = n
  table : ∀ k, st.df = some k → k.events.length = n ∧ k.ratio = st.ratio

theorem modelled_cell {st : DecompState} {i : Nat} {v : ℚ} :
    cellAt (cellsMul (cellsMul st.trend st.seasonal) st.ratio) i = some v ↔ Spec.Modelled (partsOf st) i v := by
  rw [cellAt_mul, cellAt_mul, cellOp_some]
  simp only [cellOp_some]
  constructor
  · rintro ⟨_, r, ⟨t, s, ht, hs, rfl⟩, hr, rfl⟩
    exact ⟨t, s, r, ht, hs, hr, rfl⟩
  · rintro ⟨t, s, r, ht, hs, hr, rfl⟩
    exact ⟨_, r, ⟨t, s, ht, hs, rfl⟩, hr, rfl⟩

theorem residual_has {pi : List Cell} {st : DecompState} (hl : Lens pi.length st) :
    Spec.Has (cellsDiv pi (cellsMul (cellsMul st.trend st.seasonal) st.ratio)) pi.length (Spec.Residual pi (partsOf st)) := by
  refine ⟨length_cellsDiv rfl (length_cellsMul (length_cellsMul hl.trend hl.seasonal) hl.ratio), fun i v => ?_⟩
  rw [cellAt_div, cellDiv_some]
  unfold Spec.Residual
  simp only [modelled_cell]

theorem rmse_some {sqrt : ℚ → ℚ} {y p : List Cell} {v : ℚ} :
    rmse sqrt y p = some v ↔
      ∃ m, Spec.MeanOver (fun i w => ∃ a b, cellAt y i = some a ∧ cellAt p i = some b ∧ w = (a - b) ^ 2) m ∧ v = sqrt m := by
  unfold rmse
  rw [Option.map_eq_some_iff]
  simp only [meanOver_cells]
  have e : ∀ i w, cellAt (List.zipWith (cellOp fun a b => (b - a) ^ 2) y p) i = some w ↔
      ∃ a b, cellAt y i = some a ∧ cellAt p i = some b ∧ w = (a - b) ^ 2 := by
    intro i w
    rw [cellAt_zipWith (by intro a; cases a <;> rfl) (by intro a; cases a <;> rfl), cellOp_some]
    constructor
    · rintro ⟨a, b, ha, hb, rfl⟩
      exact ⟨a, b, ha, hb, by ring⟩
    · rintro ⟨a, b, ha, hb, rfl⟩
      exact ⟨a, b, ha, hb, by ring⟩
  constructor
  · rintro ⟨m, hm, rfl⟩
    exact ⟨m, (meanOver_congr e).mp hm, rfl⟩
  · rintro ⟨m, hm, rfl⟩
    exact ⟨m, (meanOver_congr e).mpr hm, rfl⟩

theorem error_some {sqrt : ℚ → ℚ} {pi : List Cell} {st : DecompState} (hl : Lens pi.length st) {v : ℚ} :
    rmse sqrt pi ((cellsMul (cellsMul st.trend st.seasonal) st.ratio).map fun c =>
      cellOp (fun x y => x * y) c (cellMean (cellsDiv pi (cellsMul (cellsMul st.trend st.seasonal) st.ratio)))) = some v ↔
      Spec.ModelError sqrt pi (partsOf st) v := by
  have key : ∀ i x, cellAt ((cellsMul (cellsMul st.trend st.seasonal) st.ratio).map fun c =>
      cellOp (fun x y => x * y) c (cellMean (cellsDiv pi (cellsMul (cellsMul st.trend st.seasonal) st.ratio)))) i = some x ↔
      ∃ m sh, Spec.Modelled (partsOf st) i m ∧ Spec.MeanOver (Spec.Residual pi (partsOf st)) sh ∧ x = m * sh := by
    intro i x
    rw [cellAt_map _ rfl, cellOp_some]
    simp only [modelled_cell, mean_has (residual_has hl)]
  rw [rmse_some]
  unfold Spec.ModelError
  constructor
  · rintro ⟨m, hm, rfl⟩
    have hsh : ∃ sh, Spec.MeanOver (Spec.Residual pi (partsOf st)) sh := by
      obtain ⟨l, ⟨ds, -, hd, rfl⟩, hn, -⟩ := hm
      cases hds : ds with
      | nil => rw [hds] at hn; simp at hn
      | cons p ps =>
        have := (hd p.1 p.2).mp (by rw [hds]; simp)
        obtain ⟨a, b, -, hb, -⟩ := this
        obtain ⟨_, sh, -, hs, -⟩ := (key _ _).mp hb
        exact ⟨sh, hs⟩
    obtain ⟨sh, hsh⟩ := hsh
    refine ⟨sh, m, hsh, (meanOver_congr fun i w => ?_).mp hm, rfl⟩
    have hu : ∀ sh', Spec.MeanOver (Spec.Residual pi (partsOf st)) sh' → sh' = sh := by
      intro sh' h'
      rw [← mean_has (residual_has hl)] at h' hsh
      rw [hsh] at h'
      exact (Option.some.inj h').symm
    constructor
    · rintro ⟨a, b, ha, hb, rfl⟩
      obtain ⟨x, sh', hx, hs, rfl⟩ := (key _ _).mp hb
      rw [hu sh' hs]
      exact ⟨a, x, ha, hx, rfl⟩
    · rintro ⟨a, x, ha, hx, rfl⟩
      exact ⟨a, x * sh, ha, (key _ _).mpr ⟨x, sh, hx, hsh, rfl⟩, rfl⟩
  · rintro ⟨sh, m, hsh, hm, rfl⟩
    refine ⟨m, (meanOver_congr fun i w => ?_).mp hm, rfl⟩
    have hu : ∀ sh', Spec.MeanOver (Spec.Residual pi (partsOf st)) sh' → sh' = sh := by
      intro sh' h'
      rw [← mean_has (residual_has hl)] at h' hsh
      rw [hsh] at h'
      exact (Option.some.inj h').symm
    constructor
    · rintro ⟨a, x, ha, hx, rfl⟩
      exact ⟨a, x * sh, ha, (key _ _).mpr ⟨x, sh, hx, hsh, rfl⟩, rfl⟩
    · rintro ⟨a, b, ha, hb, rfl⟩
      obtain ⟨x, sh', hx, hs, rfl⟩ := (key _ _).mp hb
      rw [hu sh' hs]
      exact ⟨a, x, ha, hx, rfl⟩

/-! ## Events -/

theorem found_of {fwd : Bool} {tuner : ℚ} {x : List Cell} {ev : List Bool}
    (h : collapse (rollingMedianCe fwd 9 tuner x).1 (cellDiff (rollingMedianCe fwd 9 tuner x).2) 5 = .ok ev) :
    Spec.Found fwd tuner x ev := by
  obtain ⟨hlen, L, hL, hE⟩ := C44_exact h
  rw [events_length] at hlen hL
  obtain ⟨sizes, hs⟩ : ∃ l, Spec.ChangeSizes fwd 9 x l :=
    ⟨_, withPos (Spec.changes fwd 9 x), withPos_fst_nodup _, fun i d => by rw [mem_withPos, change_cell], rfl⟩
  have hr : ∀ i d, cellAt (cellDiff (rollingMedianCe fwd 9 tuner x).2) i = some d ↔ Spec.Change fwd 9 x i d := fun i d => change_cell
  refine ⟨hlen, _, _, sizes, L, hr, hs, fun i => ?_, hL, hE⟩
  have hg : getB (rollingMedianCe fwd 9 tuner x).1 i = true ↔ (rollingMedianCe fwd 9 tuner x).1[i]? = some true := by
    unfold getB
    rw [List.getD_eq_getElem?_getD]
    cases (rollingMedianCe fwd 9 tuner x).1[i]? with
    | none => simp
    | some b => simp
  rw [hg, C62_cleaning_event hs]
  simp only [hr]

theorem getB_orEvents {a b : List Bool} (h : a.length = b.length) (i : Nat) :
    getB (orEvents a b) i = true ↔ getB a i = true ∨ getB b i = true := by
  unfold getB orEvents
  rw [List.getD_eq_getElem?_getD, List.getD_eq_getElem?_getD, List.getD_eq_getElem?_getD, List.getElem?_zipWith]
  rcases Nat.lt_or_ge i a.length with hi | hi
  · rw [List.getElem?_eq_getElem hi, List.getElem?_eq_getElem (h ▸ hi)]
    simp
  · rw [List.getElem?_eq_none hi, List.getElem?_eq_none (h ▸ hi)]
    simp

/-! ## One iteration -/

theorem cellAt_firstNormalized {t : List Cell} {i : Nat} {v : ℚ} : cellAt (firstNormalized t) i = some v ↔
    ∃ x y, cellAt t i = some x ∧ cellAt t 0 = some y ∧ y ≠ 0 ∧ v = x / y := by
  unfold firstNormalized
  rw [cellAt_map _ (by simp [cellDiv]), cellDiv_some]

theorem cellAt_linearTrend {n : Nat} {d : ℚ} {i : Nat} {v : ℚ} :
    cellAt (linearTrend n d) i = some v ↔ i < n ∧ v = 1 + (i : ℚ) * (d / 36500) := by
  unfold linearTrend
  rw [cellAt_range_map]
  split_ifs with h
  · simp only [Option.some.injEq, h, true_and]
    have : (1 + (i : ℚ) * d / 100 / 365) = 1 + (i : ℚ) * (d / 36500) := by ring
    rw [this]
    exact eq_comm
  · simp [h]

/-- the variables the next fit uses, as specified -/
structure IterInv (o : DecompOpts) (pi : List Cell) (st : DecompState) : Prop where
  lens : Lens pi.length st
  residuals : Spec.Has st.residuals pi.length (Spec.Residual pi (partsOf st))
  shift : (st.ic = 0 ∧ st.shift = some 1) ∨ (0 < st.ic ∧ ∀ v, st.shift = some v ↔ Spec.MeanOver (Spec.Residual pi (partsOf st)) v)
  pce : st.ic < 2 → Spec.Found o.fwd o.cleaning pi st.pce

theorem fitSR_spec {e : DecompEnv} {fuel : Nat} {o : DecompOpts} {day0 : Int} {pi : List Cell} {st s : DecompState}
    (hI : IterInv o pi st) (h : fitSR fuel o pi { st with ic := st.ic + 1 } = .ok s) :
    Spec.Fit e fuel o day0 pi (st.ic + 1) st.perfect (partsOf st) .SR (partsOf s) ∧ Lens pi.length s ∧
      (st.ic + 1 < 2 → Spec.Found o.fwd o.cleaning pi s.pce) := by
  unfold fitSR at h
  obtain ⟨p, hp, h⟩ := bind_ok'.mp h
  obtain ⟨k, hk, h⟩ := bind_ok'.mp h
  cases h
  have hzl : ((cellsDiv (cellsDiv pi st.trend) st.seasonal).map fun c => cellDiv c st.shift).length = pi.length := by
    rw [List.length_map]
    exact length_cellsDiv (length_cellsDiv rfl hI.lens.trend) hI.lens.seasonal
  obtain ⟨-, hr, -, he, -⟩ := C45_columns (pre := .series p.1) trivial hk
  dsimp only at hr he
  rw [hzl] at hr he
  unfold prepareEvents at hp
  dsimp only at hp
  have hsh : (st.ic + 1 = 1 ∧ st.shift = some 1) ∨
      (1 < st.ic + 1 ∧ ∀ v, st.shift = some v ↔ Spec.MeanOver (Spec.Residual pi (partsOf st)) v) := by
    rcases hI.shift with ⟨h1, h2⟩ | ⟨h1, h2⟩
    · exact .inl ⟨by omega, h2⟩
    · exact .inr ⟨by omega, h2⟩
  have hsig : Spec.Has ((cellsDiv (cellsDiv pi st.trend) st.seasonal).map fun c => cellDiv c st.shift) pi.length fun i v =>
      ∃ y t s m, cellAt pi i = some y ∧ cellAt (partsOf st).trend i = some t ∧
        cellAt (partsOf st).seasonal i = some s ∧ st.shift = some m ∧ t ≠ 0 ∧ s ≠ 0 ∧ m ≠ 0 ∧ v = y / (t * s * m) := by
    refine ⟨hzl, fun i v => ?_⟩
    rw [cellAt_map _ (by simp [cellDiv]), cellDiv_some]
    simp only [cellAt_div, cellDiv_some]
    constructor
    · rintro ⟨_, m, ⟨_, s, ⟨y, t, hy, ht, h1, rfl⟩, hs, h2, rfl⟩, hm, h3, rfl⟩
      exact ⟨y, t, s, m, hy, ht, hs, hm, h1, h2, h3, by field_simp⟩
    · rintro ⟨y, t, s, m, hy, ht, hs, hm, h1, h2, h3, rfl⟩
      exact ⟨_, m, ⟨_, s, ⟨y, t, hy, ht, h1, rfl⟩, hs, h2, rfl⟩, hm, h3, by field_simp⟩
  by_cases hic : 2 < st.ic + 1
  · rw [if_pos hic] at hp
    cases hd : st.df with
    | none => simp only [hd] at hp; cases hp
    | some k0 =>
      simp only [hd] at hp
      obtain ⟨ce, hce, rfl⟩ := map_ok.mp hp
      have hf := found_of hce
      have hlen : ce.length = pi.length := by rw [hf.1, hI.residuals.1]
      have hk0 : k0.events.length = pi.length := (hI.lens.table k0 hd).1
      refine ⟨.soiling hsh hsig (.inr ⟨hic, ?_, ?_, k0, st.residuals, ce, hd, hI.residuals, ?_, ?_, ?_⟩) hk,
        ⟨hI.lens.trend, hI.lens.seasonal, hr, ?_⟩, fun h => by omega⟩
      · show st.cleaning * (12 / 10) = st.cleaning * (6 / 5)
        norm_num
      · show st.pruning / (11 / 10) = st.pruning * (10 / 11)
        ring
      · exact hf
      · show (orEvents k0.events ce).length = _
        simp [orEvents, hlen, hk0]
      · intro i
        exact getB_orEvents (by rw [hk0, hlen]) i
      · intro k' hk'
        cases hk'
        exact ⟨he, rfl⟩
  · rw [if_neg hic] at hp
    cases hp
    have hf := hI.pce (by omega)
    refine ⟨.soiling hsh hsig (.inl ⟨by omega, hf, rfl, rfl⟩) hk, ⟨hI.lens.trend, hI.lens.seasonal, hr, ?_⟩, fun _ => hf⟩
    intro k' hk'
    cases hk'
    exact ⟨he, rfl⟩

theorem fitSC_spec {e : DecompEnv} (hel : Spec.envLengths e) {fuel : Nat} {o : DecompOpts} {day0 : Int} {pi : List Cell}
    {st s : DecompState} (hI : IterInv o pi st) (h : fitSC e o day0 pi { st with ic := st.ic + 1 } = .ok s) :
    Spec.Fit e fuel o day0 pi (st.ic + 1) st.perfect (partsOf st) .SC (partsOf s) ∧ Lens pi.length s ∧ s.pce = st.pce := by
  unfold fitSC at h
  obtain ⟨⟨sc, tr⟩, hs, h⟩ := bind_ok'.mp h
  dsimp only at h hs
  have hcl : (cellsDiv pi st.ratio).length = pi.length := length_cellsDiv rfl hI.lens.ratio
  obtain ⟨h1, h2⟩ := hel _ _ _ hs
  rw [hcl] at h1 h2
  have hsig : Spec.Has (cellsDiv pi st.ratio) pi.length fun i v => ∃ y r, cellAt pi i = some y ∧
      cellAt (partsOf st).ratio i = some r ∧ r ≠ 0 ∧ v = y / r := by
    refine ⟨hcl, fun i v => ?_⟩
    rw [cellAt_div, cellDiv_some]
    rfl
  have hsl : ((forcePeriodicity ((daysFrom day0 sc.length).zip sc) (daysFrom day0 pi.length)).map Prod.snd).length = pi.length := by
    simp [forcePeriodicity, daysFrom]
  by_cases ho : o.stl = true
  · rw [if_pos ho] at h
    obtain ⟨d, hd, h⟩ := bind_ok'.mp h
    cases h
    have hfl : (firstNormalized tr).length = pi.length := by simp [firstNormalized, h2]
    refine ⟨.seasonTrend hsig hs ?_ ho ⟨hfl, fun i v => cellAt_firstNormalized⟩ hd, ⟨hfl, hsl, hI.lens.ratio, hI.lens.table⟩, rfl⟩
    show (forcePeriodicity ((daysFrom day0 sc.length).zip sc) (daysFrom day0 pi.length)).map Prod.snd = _
    rw [h1]
    rfl
  · rw [if_neg ho] at h
    cases h
    refine ⟨.season hsig hs ?_ (by simpa using ho), ⟨hI.lens.trend, hsl, hI.lens.ratio, hI.lens.table⟩, rfl⟩
    show (forcePeriodicity ((daysFrom day0 sc.length).zip sc) (daysFrom day0 pi.length)).map Prod.snd = _
    rw [h1]
    rfl

theorem fitRd_spec {e : DecompEnv} {fuel : Nat} {o : DecompOpts} {day0 : Int} {pi : List Cell} {st s : DecompState}
    (hI : IterInv o pi st) (h : fitRd e pi { st with ic := st.ic + 1 } = .ok s) :
    Spec.Fit e fuel o day0 pi (st.ic + 1) st.perfect (partsOf st) .Rd (partsOf s) ∧ Lens pi.length s ∧ s.pce = st.pce := by
  unfold fitRd at h
  obtain ⟨d, hd, h⟩ := bind_ok'.mp h
  cases h
  have hll : (linearTrend pi.length d).length = pi.length := by simp [linearTrend]
  refine ⟨.degradation ⟨length_cellsDiv (length_cellsDiv rfl hI.lens.seasonal) hI.lens.ratio, fun i v => ?_⟩ hd
    ⟨hll, fun i v => cellAt_linearTrend⟩, ⟨hll, hI.lens.seasonal, hI.lens.ratio, hI.lens.table⟩, rfl⟩
  rw [cellAt_div, cellAt_div, cellDiv_some]
  simp only [cellDiv_some]
  constructor
  · rintro ⟨_, r, ⟨y, s, hy, hs, h1, rfl⟩, hr, h2, rfl⟩
    exact ⟨y, s, r, hy, hs, hr, h1, h2, by field_simp⟩
  · rintro ⟨y, s, r, hy, hs, hr, h1, h2, rfl⟩
    exact ⟨_, r, ⟨y, s, hy, hs, h1, rfl⟩, hr, h2, by field_simp⟩

theorem fitComp_spec {e : DecompEnv} (hel : Spec.envLengths e) {fuel : Nat} {o : DecompOpts} {day0 : Int} {pi : List Cell}
    {st s : DecompState} (hI : IterInv o pi st) (h : fitComp e fuel o day0 pi { st with ic := st.ic + 1 } = .ok s) :
    ∃ c, s.log = st.log ++ [(c, st.perfect)] ∧
      Spec.Fit e fuel o day0 pi (st.ic + 1) st.perfect (partsOf st) c (partsOf s) ∧ Lens pi.length s ∧
      (st.ic + 1 < 2 → Spec.Found o.fwd o.cleaning pi s.pce) := by
  unfold fitComp at h
  cases hc : compAt { st with ic := st.ic + 1 }.order { st with ic := st.ic + 1 }.ic with
  | none => rw [hc] at h; cases h
  | some c =>
    rw [hc] at h
    cases c with
    | SR =>
      obtain ⟨a, ha, rfl⟩ := map_ok.mp h
      obtain ⟨h1, h2, h3⟩ := fitSR_spec (e := e) (day0 := day0) hI ha
      exact ⟨.SR, rfl, h1, ⟨h2.1, h2.2, h2.3, h2.4⟩, h3⟩
    | SC =>
      obtain ⟨a, ha, rfl⟩ := map_ok.mp h
      obtain ⟨h1, h2, h3⟩ := fitSC_spec (fuel := fuel) hel hI ha
      exact ⟨.SC, rfl, h1, ⟨h2.1, h2.2, h2.3, h2.4⟩, fun hi => by show Spec.Found _ _ _ a.pce; rw [h3]; exact hI.pce (by omega)⟩
    | Rd =>
      obtain ⟨a, ha, rfl⟩ := map_ok.mp h
      obtain ⟨h1, h2, h3⟩ := fitRd_spec (fuel := fuel) (o := o) (day0 := day0) hI ha
      exact ⟨.Rd, rfl, h1, ⟨h2.1, h2.2, h2.3, h2.4⟩, fun hi => by show Spec.Found _ _ _ a.pce; rw [h3]; exact hI.pce (by omega)⟩

/-! ## The loop -/

theorem little_iff {crit : ℚ} {a b : Cell} : littleImprovement crit a b = true ↔ Spec.Little crit a b := by
  unfold Spec.Little
  cases a with
  | none => simp [littleImprovement]
  | some p =>
    cases b with
    | none => simp [littleImprovement]
    | some c =>
      simp only [littleImprovement]
      split_ifs with h
      · subst h; simp
      · simp [h]

theorem converged_iff {crit : ℚ} {t : DecompState} (hm : t.metrics.length = t.ic + 1) : converged crit t = true ↔
    Spec.Little crit (cellAt t.metrics (t.ic - t.order.length)) (cellAt t.metrics t.ic) := by
  unfold converged
  rw [little_iff, hm]
  have e1 : t.ic + 1 - t.order.length - 1 = t.ic - t.order.length := by omega
  rw [e1, Nat.add_sub_cancel]

theorem cellAt_snoc {m : List Cell} {x : Cell} {k : Nat} (h : k < m.length) : cellAt (m ++ [x]) k = cellAt m k := by
  unfold cellAt
  rw [List.getElem?_append_left h]

theorem enough_snoc {o : DecompOpts} {N : Nat} {m : List Cell} {x : Cell} {k : Nat} (h : k < m.length) :
    Spec.Enough o N (m ++ [x]) k ↔ Spec.Enough o N m k := by
  unfold Spec.Enough
  rw [cellAt_snoc h, cellAt_snoc (by omega)]

theorem firstEnough_snoc {o : DecompOpts} {N : Nat} {m : List Cell} {x : Cell} {k : Nat} (h : k < m.length) :
    Spec.FirstEnough o N (m ++ [x]) k ↔ Spec.FirstEnough o N m k := by
  unfold Spec.FirstEnough
  rw [enough_snoc h]
  refine and_congr_right fun _ => forall_congr' fun j => forall_congr' fun hj => ?_
  rw [enough_snoc (by omega)]

/-- whether perfect cleaning is still assumed, from which iteration on not, and that it has gone on since -/
inductive Phase (o : DecompOpts) (N : Nat) (perfect : Bool) (cp ic : Nat) (log : List (Comp × Bool)) (err : List Cell) : Prop
  | first (hp : perfect = true) (hl : ∀ (n : Nat) (c : Comp) (p : Bool), log[n]? = some (c, p) → p = true)
      (hn : ∀ k, k ≤ ic → ¬Spec.Enough o N err k)
  | second (hp : perfect = false) (hc : Spec.FirstEnough o N err cp) (hle : cp ≤ ic)
      (hl : ∀ (n : Nat) (c : Comp) (p : Bool), log[n]? = some (c, p) → p = decide (n < cp))
      (hn : ∀ k, cp + N ≤ k → k < ic → ¬Spec.Little o.criterion (cellAt err (k - N)) (cellAt err k))

/-- what holds between two iterations -/
structure RunInv (e : DecompEnv) (fuel : Nat) (o : DecompOpts) (day0 : Int) (pi : List Cell) (N : Nat) (ps : List Spec.Parts)
    (st : DecompState) : Prop where
  iter : IterInv o pi st
  order : st.order.length = N
  log : st.log.length = st.ic
  psLen : ps.length = st.ic + 1
  metLen : st.metrics.length = st.ic + 1
  last : ps[st.ic]? = some (partsOf st)
  start : ps[0]? = some ⟨pi.map fun _ => some 1, pi.map fun _ => some 1, pi.map fun _ => some 1, none, 0, o.cleaning, o.pruning⟩
  fits : ∀ (n : Nat) (c : Comp) (perfect : Bool), st.log[n]? = some (c, perfect) →
    ∃ a b, ps[n]? = some a ∧ ps[n + 1]? = some b ∧ Spec.Fit e fuel o day0 pi (n + 1) perfect a c b
  firstError : ∀ v, cellAt st.metrics 0 = some v ↔ Spec.FirstError e.sqrt pi v
  errors : ∀ (n : Nat) (b : Spec.Parts), ps[n + 1]? = some b → ∀ v, cellAt st.metrics (n + 1) = some v ↔
    Spec.ModelError e.sqrt pi b v
  phase : Phase o N st.perfect st.changePoint st.ic st.log st.metrics

/-- the loop has not been left after the last iteration -/
def Goes (o : DecompOpts) (N : Nat) (st : DecompState) : Prop :=
  st.perfect = false → st.changePoint + N ≤ st.ic →
    ¬Spec.Little o.criterion (cellAt st.metrics (st.ic - N)) (cellAt st.metrics st.ic)

theorem getElem?_snoc_cases {α : Type} {l : List α} {x y : α} {n : Nat} (h : (l ++ [x])[n]? = some y) :
    l[n]? = some y ∧ n < l.length ∨ n = l.length ∧ y = x := by
  rcases Nat.lt_or_ge n l.length with h1 | h1
  · rw [List.getElem?_append_left h1] at h
    exact .inl ⟨h, h1⟩
  · have hn : n < (l ++ [x]).length := (List.getElem?_eq_some_iff.mp h).1
    have : n = l.length := by simp at hn; omega
    subst this
    simp at h
    exact .inr ⟨rfl, h.symm⟩

/-- the decision changes neither the errors nor the number of components -/
theorem decideNext_more (o : DecompOpts) (t : DecompState) : (decideNext o t).1.metrics = t.metrics ∧
    (decideNext o t).1.order.length = t.order.length ∧ (decideNext o t).1.pce = t.pce ∧
    partsOf (decideNext o t).1 = partsOf t := by
  unfold decideNext
  split_ifs
  · exact ⟨rfl, reorder_length _ _, rfl, rfl⟩
  all_goals exact ⟨rfl, rfl, rfl, rfl⟩

/-- the decision, given what is assumed before -/
theorem decide_phase {o : DecompOpts} {N : Nat} (hN : 0 < N) {t : DecompState} {m : List Cell} {x : Cell} {ic cp : Nat} {pf : Bool}
    {log : List (Comp × Bool)} {c : Comp} (hord : t.order.length = N) (hm : m.length = ic + 1) (hlog : log.length = ic)
    (h1 : t.ic = ic + 1) (h2 : t.perfect = pf) (h3 : t.changePoint = cp) (h4 : t.metrics = m ++ [x])
    (h5 : t.log = log ++ [(c, pf)]) (hP : Phase o N pf cp ic log m)
    (hG : pf = false → cp + N ≤ ic → ¬Spec.Little o.criterion (cellAt m (ic - N)) (cellAt m ic)) :
    Phase o N (decideNext o t).1.perfect (decideNext o t).1.changePoint (ic + 1) t.log t.metrics ∧
      ((decideNext o t).2 = false → (decideNext o t).1.perfect = false → (decideNext o t).1.changePoint + N ≤ ic + 1 →
        o.maxIterations ≤ ic + 1 ∨ ¬Spec.Little o.criterion (cellAt t.metrics (ic + 1 - N)) (cellAt t.metrics (ic + 1))) ∧
      ((decideNext o t).2 = true → (decideNext o t).1.perfect = false ∧ (o.maxIterations ≤ ic + 1 ∨
        ((decideNext o t).1.changePoint + N ≤ ic + 1 ∧
          Spec.Little o.criterion (cellAt t.metrics (ic + 1 - N)) (cellAt t.metrics (ic + 1))))) := by
  have hcv : converged o.criterion t = true ↔
      Spec.Little o.criterion (cellAt t.metrics (ic + 1 - N)) (cellAt t.metrics (ic + 1)) := by
    rw [converged_iff (by rw [h4, h1]; simp [hm]), h1, hord]
  cases hP with
  | first hp hl hn =>
    subst hp
    have hl' : ∀ (n : Nat) (c : Comp) (p : Bool), t.log[n]? = some (c, p) → p = true := by
      intro n c' p h
      rw [h5] at h
      rcases getElem?_snoc_cases h with ⟨h, -⟩ | ⟨-, h⟩
      · exact hl n c' p h
      · cases h; rfl
    have hn' : ∀ k, k ≤ ic → ¬Spec.Enough o N t.metrics k := by
      intro k hk
      rw [h4, enough_snoc (by omega)]
      exact hn k hk
    by_cases hE : Spec.Enough o N t.metrics (ic + 1)
    · have hd : decideNext o t = ({ t with perfect := false, order := reorder t.order t.ic, changePoint := t.ic }, false) := by
        unfold decideNext
        have h1' : t.order.length ≤ t.ic := by rw [hord, h1]; exact hE.1
        rw [if_pos h1', if_pos]
        rw [h2, h1]
        rcases hE.2 with h | h
        · simp [h]
        · simp [hcv.mpr h]
      rw [hd]
      refine ⟨.second rfl ⟨by rw [h1]; exact hE, fun j hj => hn' j (by change j < t.ic at hj; omega)⟩ (by rw [h1]) ?_ ?_, ?_, ?_⟩
      · intro n c' p h
        have hlt : n < t.ic := by
          have := (List.getElem?_eq_some_iff.mp h).1
          rw [h5] at this
          simp at this
          omega
        rw [hl' n c' p h]
        simp [hlt]
      · intro k hk
        dsimp only at hk
        omega
      · intro _ _ h
        dsimp only at h
        omega
      · intro h
        cases h
    · have hd : decideNext o t = (t, false) := by
        unfold decideNext
        by_cases h1' : t.order.length ≤ t.ic
        · rw [if_pos h1', if_neg, if_neg]
          · rw [h2]; simp
          · intro hc
            rw [h2, h1] at hc
            simp only [Bool.true_and, Bool.or_eq_true, decide_eq_true_eq, hcv] at hc
            exact hE ⟨by omega, hc⟩
        · rw [if_neg h1']
      rw [hd]
      refine ⟨.first h2 hl' fun k hk => ?_, fun _ h => ?_, fun h => by cases h⟩
      · rcases Nat.lt_or_ge k (ic + 1) with hlt | hge
        · exact hn' k (by omega)
        · have : k = ic + 1 := by omega
          subst this
          exact hE
      · rw [h2] at h
        cases h
  | second hp hc hle hl hn =>
    subst hp
    have hc' : Spec.FirstEnough o N t.metrics cp := by
      rw [h4, firstEnough_snoc (by omega)]
      exact hc
    have hl' : ∀ (n : Nat) (c : Comp) (p : Bool), t.log[n]? = some (c, p) → p = decide (n < cp) := by
      intro n c' p h
      rw [h5] at h
      rcases getElem?_snoc_cases h with ⟨h, -⟩ | ⟨hn, h⟩
      · exact hl n c' p h
      · cases h
        have : ¬n < cp := by omega
        simp [this]
    have hn' : ∀ k, cp + N ≤ k → k < ic + 1 → ¬Spec.Little o.criterion (cellAt t.metrics (k - N)) (cellAt t.metrics k) := by
      intro k hk hk'
      rw [h4, cellAt_snoc (by omega), cellAt_snoc (by omega)]
      rcases Nat.lt_or_ge k ic with hlt | hge
      · exact hn k hk hlt
      · have : k = ic := by omega
        subst this
        exact hG rfl hk
    have hPh : Phase o N t.perfect t.changePoint (ic + 1) t.log t.metrics :=
      .second h2 (by rw [h3]; exact hc') (by omega) (by rw [h3]; exact hl') (by rw [h3]; exact hn')
    have hlen : t.order.length ≤ t.ic := by
      have := hc.1.1
      omega
    by_cases hS : o.maxIterations ≤ ic + 1 ∨
        (cp + N ≤ ic + 1 ∧ Spec.Little o.criterion (cellAt t.metrics (ic + 1 - N)) (cellAt t.metrics (ic + 1)))
    · have hd : decideNext o t = (t, true) := by
        unfold decideNext
        rw [if_pos hlen, if_neg (by rw [h2]; simp), if_pos]
        rw [h2, h1, h3, hord]
        rcases hS with h | ⟨h, h'⟩
        · simp [h]
        · simp [h, hcv.mpr h']
      rw [hd]
      refine ⟨hPh, fun h => absurd h (by simp), fun _ => ⟨h2, ?_⟩⟩
      rw [h3]
      exact hS
    · have hd : decideNext o t = (t, false) := by
        unfold decideNext
        rw [if_pos hlen, if_neg (by rw [h2]; simp), if_neg]
        rw [h2, h1, h3, hord]
        simp only [Bool.not_false, Bool.true_and, Bool.or_eq_true, Bool.and_eq_true, decide_eq_true_eq, hcv]
        exact hS
      rw [hd]
      refine ⟨hPh, fun _ _ h => .inr fun hli => hS (.inr ⟨?_, hli⟩), fun h => by cases h⟩
      rw [h3] at h
      exact h

/-- one iteration -/
theorem step_run {e : DecompEnv} (hel : Spec.envLengths e) {fuel : Nat} {o : DecompOpts} {day0 : Int} {pi : List Cell} {N : Nat}
    (hN : 0 < N) {ps : List Spec.Parts} {st s : DecompState} (hI : RunInv e fuel o day0 pi N ps st) (hG : Goes o N st)
    (h : fitComp e fuel o day0 pi { st with ic := st.ic + 1 } = .ok s) :
    RunInv e fuel o day0 pi N (ps ++ [partsOf s]) (decideNext o (combine e pi s)).1 ∧
      (decideNext o (combine e pi s)).1.ic = st.ic + 1 ∧
      ((decideNext o (combine e pi s)).2 = false → o.maxIterations ≤ st.ic + 1 ∨ Goes o N (decideNext o (combine e pi s)).1) ∧
      ((decideNext o (combine e pi s)).2 = true → (decideNext o (combine e pi s)).1.perfect = false ∧
        (o.maxIterations ≤ st.ic + 1 ∨ ((decideNext o (combine e pi s)).1.changePoint + N ≤ st.ic + 1 ∧
          Spec.Little o.criterion (cellAt (decideNext o (combine e pi s)).1.metrics (st.ic + 1 - N))
            (cellAt (decideNext o (combine e pi s)).1.metrics (st.ic + 1))))) := by
  obtain ⟨c, hlog, hfit, hlens, hpce⟩ := fitComp_spec (fuel := fuel) (day0 := day0) hel hI.iter h
  obtain ⟨f1, f2, f3, f4, f5, -⟩ := fitComp_frame h
  dsimp only at f1 f2 f3 f4 f5
  obtain ⟨d1, d2, d3, d4, d5, d6, d7, d8, d9, -⟩ := decideNext_frame o (combine e pi s)
  obtain ⟨m1, m2, m3, m4⟩ := decideNext_more o (combine e pi s)
  have g1 : (combine e pi s).ic = st.ic + 1 := f1
  have gp : partsOf (combine e pi s) = partsOf s := rfl
  obtain ⟨p1, p2, p3⟩ := decide_phase (t := combine e pi s) (c := c) (ic := st.ic) hN (by show s.order.length = N; rw [f2, hI.order]) hI.metLen
    hI.log g1 f3 f4 (by show s.metrics ++ _ = st.metrics ++ _; rw [f5]) hlog hI.phase hG
  have hres := residual_has hlens
  have hps : (ps ++ [partsOf s])[st.ic + 1]? = some (partsOf s) := by
    rw [← hI.psLen]
    simp
  have hmet : ∀ v, cellAt (combine e pi s).metrics (st.ic + 1) = some v ↔ Spec.ModelError e.sqrt pi (partsOf s) v := by
    intro v
    rw [← error_some hlens]
    have : (combine e pi s).metrics = st.metrics ++ [rmse e.sqrt pi ((cellsMul (cellsMul s.trend s.seasonal) s.ratio).map fun c =>
      cellOp (fun x y => x * y) c (cellMean (cellsDiv pi (cellsMul (cellsMul s.trend s.seasonal) s.ratio))))] := by
      show s.metrics ++ _ = _
      rw [f5]
    rw [this, ← hI.metLen]
    unfold cellAt
    simp
  have hold : ∀ k, k ≤ st.ic → cellAt (combine e pi s).metrics k = cellAt st.metrics k := by
    intro k hk
    show cellAt (s.metrics ++ _) k = _
    rw [f5, cellAt_snoc (by rw [hI.metLen]; omega)]
  refine ⟨⟨⟨⟨by rw [d1]; exact hlens.1, by rw [d2]; exact hlens.2, by rw [d3]; exact hlens.3, by rw [d3, d4]; exact hlens.4⟩,
    by rw [d7, m4]; exact hres, .inr ⟨by rw [d9, g1]; omega, fun v => ?_⟩, fun hi => ?_⟩, by rw [m2]; show s.order.length = N; rw [f2, hI.order],
    ?_, ?_, ?_, ?_, ?_, ?_, ?_, ?_, ?_⟩, by rw [d9, g1], ?_, ?_⟩
  · rw [d6, m4, gp]
    exact mean_has hres
  · rw [m3]
    exact hpce (by rw [d9, g1] at hi; omega)
  · rw [d8, d9, g1]
    show s.log.length = _
    rw [hlog]
    simp [hI.log]
  · rw [d9, g1]
    simp [hI.psLen]
  · rw [m1, d9, g1]
    show (s.metrics ++ _).length = _
    rw [f5]
    simp [hI.metLen]
  · rw [d9, g1, m4, gp]
    exact hps
  · rw [List.getElem?_append_left (by rw [hI.psLen]; omega)]
    exact hI.start
  · intro n c' pf hn
    rw [d8] at hn
    change s.log[n]? = _ at hn
    rw [hlog] at hn
    rcases getElem?_snoc_cases hn with ⟨hn, hlt⟩ | ⟨hn', he⟩
    · obtain ⟨a, b, ha, hb, hf⟩ := hI.fits n c' pf hn
      rw [hI.log] at hlt
      refine ⟨a, b, ?_, ?_, hf⟩
      · rw [List.getElem?_append_left (by rw [hI.psLen]; omega)]; exact ha
      · rw [List.getElem?_append_left (by rw [hI.psLen]; omega)]; exact hb
    · cases he
      rw [hI.log] at hn'
      subst hn'
      refine ⟨partsOf st, partsOf s, ?_, hps, hfit⟩
      rw [List.getElem?_append_left (by rw [hI.psLen]; omega)]
      exact hI.last
  · intro v
    rw [m1, hold 0 (by omega)]
    exact hI.firstError v
  · intro n b hb v
    rw [m1]
    rcases getElem?_snoc_cases hb with ⟨hb, hlt⟩ | ⟨hn, rfl⟩
    · rw [hI.psLen] at hlt
      rw [hold (n + 1) (by omega)]
      exact hI.errors n b hb v
    · rw [hI.psLen] at hn
      rw [hn]
      exact hmet v
  · rw [d8, d9, m1, g1]
    exact p1
  · intro hs
    by_cases hmx : o.maxIterations ≤ st.ic + 1
    · exact .inl hmx
    · refine .inr fun h1 h2 => ?_
      rw [d9, g1] at h2
      rw [d9, g1, m1]
      exact (p2 hs h1 h2).resolve_left hmx
  · rw [m1]
    exact p3

theorem loop_run {e : DecompEnv} (hel : Spec.envLengths e) {fuel : Nat} {o : DecompOpts} {day0 : Int} {pi : List Cell} {N : Nat}
    (hN : 0 < N) : ∀ (rem : Nat) {ps : List Spec.Parts} {st s : DecompState}, RunInv e fuel o day0 pi N ps st →
      (rem = 0 ∨ Goes o N st) → st.ic + rem = o.maxIterations → decompLoop e fuel o day0 pi rem st = .ok s →
      ∃ ps', RunInv e fuel o day0 pi N ps' s ∧ (s.ic = o.maxIterations ∨ (s.ic < o.maxIterations ∧ s.perfect = false ∧
        s.changePoint + N ≤ s.ic ∧ Spec.Little o.criterion (cellAt s.metrics (s.ic - N)) (cellAt s.metrics s.ic)))
  | 0, ps, st, s, hI, hG, hr, h => by
    unfold decompLoop at h
    cases h
    exact ⟨ps, hI, .inl (by omega)⟩
  | rem + 1, ps, st, s, hI, hG, hr, h => by
    unfold decompLoop at h
    obtain ⟨t, ht, h⟩ := bind_ok'.mp h
    obtain ⟨h1, h2, h3, h4⟩ := step_run hel hN hI (hG.resolve_left (by omega)) ht
    by_cases hs : (decideNext o (combine e pi t)).2 = true
    · rw [if_pos hs] at h
      cases h
      obtain ⟨k1, k2⟩ := h4 hs
      refine ⟨_, h1, ?_⟩
      rw [h2]
      by_cases hmx : st.ic + 1 = o.maxIterations
      · exact .inl hmx
      · exact .inr ⟨by omega, k1, k2.resolve_left (by omega)⟩
    · rw [if_neg hs] at h
      refine loop_run hel hN rem h1 ?_ (by omega) h
      rcases h3 (by simpa using hs) with k | k
      · exact .inl (by omega)
      · exact .inr k

/-! ## The call -/

theorem init_run {e : DecompEnv} {fuel : Nat} {o : DecompOpts} {day0 : Int} {pi : List Cell} {pce : List Bool}
    (hN : 0 < (effectiveOrder o).length)
    (hp : collapse (rollingMedianCe o.fwd 9 o.cleaning pi).1 (cellDiff (rollingMedianCe o.fwd 9 o.cleaning pi).2) 5 = .ok pce) :
    RunInv e fuel o day0 pi (effectiveOrder o).length [partsOf (initState e o pi pce)] (initState e o pi pce) := by
  have hone : ∀ i v, cellAt (pi.map fun _ => (some 1 : Cell)) i = some v ↔ i < pi.length ∧ v = 1 := by
    intro i v
    unfold cellAt
    rw [List.getElem?_map]
    rcases Nat.lt_or_ge i pi.length with h | h
    · rw [List.getElem?_eq_getElem h]
      simp [h, eq_comm]
    · rw [List.getElem?_eq_none h]
      simp [h]
  refine ⟨⟨⟨by simp [initState], by simp [initState], by simp [initState], fun k hk => by cases hk⟩, ⟨rfl, fun i v => ?_⟩,
    .inl ⟨rfl, rfl⟩, fun _ => found_of hp⟩, rfl, rfl, rfl, rfl, rfl, rfl, fun n c pf hn => ?_, fun v => ?_, fun n b hb => ?_,
    .first rfl (fun n c pf hn => ?_) fun k hk hE => ?_⟩
  · show cellAt pi i = some v ↔ _
    unfold Spec.Residual Spec.Modelled partsOf initState
    simp only [hone]
    constructor
    · intro h
      exact ⟨v, 1, h, ⟨1, 1, 1, ⟨cellAt_lt h, rfl⟩, ⟨cellAt_lt h, rfl⟩, ⟨cellAt_lt h, rfl⟩, by norm_num⟩, one_ne_zero, by norm_num⟩
    · rintro ⟨y, m, h, ⟨t, s, r, ⟨-, rfl⟩, ⟨-, rfl⟩, ⟨-, rfl⟩, rfl⟩, -, rfl⟩
      rw [h]
      norm_num
  · simp [initState] at hn
  · show cellAt [rmse e.sqrt pi (pi.map fun _ => some 1)] 0 = some v ↔ _
    have : cellAt [rmse e.sqrt pi (pi.map fun _ => some 1)] 0 = rmse e.sqrt pi (pi.map fun _ => some 1) := rfl
    rw [this, rmse_some]
    unfold Spec.FirstError
    simp only [hone]
    have e1 : ∀ i w, (∃ a b, cellAt pi i = some a ∧ (i < pi.length ∧ b = 1) ∧ w = (a - b) ^ 2) ↔
        ∃ y, cellAt pi i = some y ∧ w = (y - 1) ^ 2 := by
      intro i w
      constructor
      · rintro ⟨a, b, ha, ⟨-, rfl⟩, rfl⟩
        exact ⟨a, ha, rfl⟩
      · rintro ⟨a, ha, rfl⟩
        exact ⟨a, 1, ha, ⟨cellAt_lt ha, rfl⟩, rfl⟩
    constructor
    · rintro ⟨m, hm, rfl⟩
      exact ⟨m, (meanOver_congr e1).mp hm, rfl⟩
    · rintro ⟨m, hm, rfl⟩
      exact ⟨m, (meanOver_congr e1).mpr hm, rfl⟩
  · simp at hb
  · simp [initState] at hn
  · have := hE.1
    change k ≤ 0 at hk
    omega

/-- the state after the loop -/
theorem decompose_run {e : DecompEnv} (hel : Spec.envLengths e) {fuel : Nat} {o : DecompOpts} {day0 : Int} {pi : List Cell}
    {out : Decomp} (h : decompose e fuel o day0 pi = .ok out) :
    ∃ ps st, RunInv e fuel o day0 pi (effectiveOrder o).length ps st ∧ finishDecomp e o pi st = .ok out ∧ out.log = st.log ∧
      (st.ic = o.maxIterations ∨ (st.ic < o.maxIterations ∧ st.perfect = false ∧
        st.changePoint + (effectiveOrder o).length ≤ st.ic ∧
        Spec.Little o.criterion (cellAt st.metrics (st.ic - (effectiveOrder o).length)) (cellAt st.metrics st.ic))) := by
  obtain ⟨hs, -⟩ := decompose_ok h
  have hN : 0 < (effectiveOrder o).length := List.length_pos_of_mem hs
  unfold decompose at h
  rw [if_neg (by simpa using hs)] at h
  obtain ⟨pce, hp, h⟩ := bind_ok'.mp h
  obtain ⟨st, h1, h⟩ := bind_ok'.mp h
  have hI := init_run (e := e) (fuel := fuel) (day0 := day0) hN hp
  obtain ⟨ps, hR, hS⟩ := loop_run hel hN o.maxIterations hI (.inr fun h => by cases h) (by show 0 + _ = _; omega) h1
  refine ⟨ps, st, hR, h, ?_, hS⟩
  unfold finishDecomp at h
  cases hk : st.df with
  | none => rw [hk] at h; cases h
  | some k =>
    rw [hk] at h
    obtain ⟨a, -, h⟩ := bind_ok'.mp h
    obtain ⟨b, -, h⟩ := bind_ok'.mp h
    cases h
    rfl

/-- **C142 (the iterations).** Every call that returns has run exactly the specified iterations: what each fit was given and left, the
errors, until when perfect cleaning was assumed, and why the call stopped. The result is that of the last iteration: its components,
rate and table, and residuals, shift, total model and error calculated from them. -/
theorem C142_run {e : DecompEnv} (hel : Spec.envLengths e) {fuel : Nat} {o : DecompOpts} {day0 : Int} {pi : List Cell}
    {out : Decomp} (h : decompose e fuel o day0 pi = .ok out) :
    ∃ (order : List Comp) (ps : List Spec.Parts) (err : List Cell) (b : Spec.Parts) (k : KalmanOut),
      (order = if o.stl then o.order.filter (fun c => decide (c ≠ Comp.Rd)) else o.order) ∧
      Spec.Run e fuel o day0 pi order.length out.log ps err ∧
      ps[out.log.length]? = some b ∧ b.table = some k ∧ out.trend = b.trend ∧ out.seasonal = b.seasonal ∧ out.ratio = b.ratio ∧
      out.degradation = b.rate ∧ out.ratio = k.ratio ∧ out.rates = k.rates ∧ out.events = k.events ∧
      Spec.Has out.residuals pi.length (Spec.Residual pi b) ∧
      (∀ v, out.shift = some v ↔ Spec.MeanOver (Spec.Residual pi b) v) ∧
      (Spec.Has out.total pi.length fun i v => ∃ m sh, Spec.Modelled b i m ∧ Spec.MeanOver (Spec.Residual pi b) sh ∧ v = m * sh) ∧
      (∀ v, out.rmse = some v ↔ Spec.ModelError e.sqrt pi b v) ∧ e.adf out.residuals = .ok out.adf := by
  obtain ⟨ps, st, hR, hF, hlog, hS⟩ := decompose_run hel h
  obtain ⟨k, hk, e1, e2, e3, e4, e5, e6, e7, e8, e9, -, e11, e12, -⟩ := finish_ok hF
  have hic : st.log.length = st.ic := hR.log
  have hl := hR.iter.lens
  have hkr := (hl.table k hk).2
  have hprod : cellsMul (cellsMul out.ratio out.seasonal) out.trend = cellsMul (cellsMul st.trend st.seasonal) st.ratio := by
    rw [e1, e4, e5, hkr]
    unfold cellsMul
    apply List.ext_getElem?
    intro i
    simp only [List.getElem?_zipWith]
    cases st.ratio[i]? with
    | none => cases st.seasonal[i]? <;> cases st.trend[i]? <;> simp
    | some a =>
      cases st.seasonal[i]? with
      | none => cases st.trend[i]? <;> simp
      | some b =>
        cases st.trend[i]? with
        | none => simp
        | some c =>
          cases a <;> cases b <;> cases c <;> simp [cellOp]
          ring
  rw [hprod] at e6 e8
  have hres := residual_has hl
  refine ⟨effectiveOrder o, ps, st.metrics, partsOf st, k, rfl, ?_, by rw [hlog, hic]; exact hR.last, hk, e5, e4, ?_, e9, e1, e2, e3,
    by rw [e6]; exact hres, ?_, ?_, ?_, e12⟩
  · refine ⟨by rw [hlog, hic]; exact ⟨hR.psLen, hR.metLen⟩, hR.start, by rw [hlog]; exact hR.fits, hR.firstError, hR.errors, ?_, ?_, ?_⟩
    · intro n c pf hn
      rw [hlog] at hn
      have hlt := (List.getElem?_eq_some_iff.mp hn).1
      rw [hic] at hlt
      cases hR.phase with
      | first hp hl hn' =>
        rw [hl n c pf hn]
        exact ⟨fun _ k hk => hn' k (by omega), fun _ => rfl⟩
      | second hp hc hle hl hn' =>
        rw [hl n c pf hn, decide_eq_true_eq]
        constructor
        · intro h k hk
          exact hc.2 k (by omega)
        · intro h
          by_contra hge
          exact h _ (by omega) hc.1
    · intro c k hc hck hk
      rw [hlog, hic] at hk
      cases hR.phase with
      | first hp hl hn' => exact absurd hc.1 (hn' c (by omega))
      | second hp hc' hle hl hn' =>
        refine hn' k ?_ hk
        have : st.changePoint ≤ c := by
          by_contra hlt
          exact hc'.2 c (by omega) hc.1
        omega
    · rw [hlog, hic]
      rcases hS with h | ⟨h1, h2, h3, h4⟩
      · exact .inl h
      · cases hR.phase with
        | first hp => rw [hp] at h2; cases h2
        | second hp hc' hle hl hn' => exact .inr ⟨h1, _, hc', h3, h4⟩
  · rw [e1, hkr]
    rfl
  · intro v
    rw [e7, e6]
    exact mean_has hres
  · rw [e8]
    refine ⟨by rw [List.length_map]; exact length_cellsMul (length_cellsMul hl.trend hl.seasonal) hl.ratio, fun i v => ?_⟩
    rw [cellAt_map _ (by cases out.shift <;> rfl), cellOp_some]
    simp only [modelled_cell]
    rw [e7, e6]
    simp only [mean_has hres]
  · intro v
    rw [e11, e8, e7, e6]
    exact error_some hl

/-- **C142 (small signal).** The soiling signal is called small exactly if the distance of the 10 % and 90 % quantiles of the soiling
ratio, relative to that of the residuals, is below the significance; the latter distance is not zero. -/
theorem C142_small {e : DecompEnv} {fuel : Nat} {o : DecompOpts} {day0 : Int} {pi : List Cell}
    {out : Decomp} (h : decompose e fuel o day0 pi = .ok out) {sr res : List ℚ}
    (hsr : Spec.Values (fun i v => cellAt out.ratio i = some v) sr) (hres : Spec.Values (fun i v => cellAt out.residuals i = some v) res) :
    (out.small = true ↔ ∃ a b c d, IsQuantile sr (1 / 10) a ∧ IsQuantile sr (9 / 10) b ∧ IsQuantile res (1 / 10) c ∧
      IsQuantile res (9 / 10) d ∧ (b - a) / (d - c) < o.significance) ∧
    ∀ c d, IsQuantile res (1 / 10) c → IsQuantile res (9 / 10) d → c ≠ d := by
  obtain ⟨-, pce, st, k0, h1, h2, h3, -⟩ := decompose_ok h
  obtain ⟨k, hk, -, -, -, -, -, -, -, -, -, -, -, -, hs⟩ := finish_ok h3
  have amp : ∀ {x : List Cell} {l : List ℚ}, Spec.Values (fun i v => cellAt x i = some v) l → ∀ v, amplitude x = some v ↔
      ∃ a b, IsQuantile l (1 / 10) a ∧ IsQuantile l (9 / 10) b ∧ v = b - a := by
    intro x l hl v
    unfold amplitude cellQuantile
    rw [cellOp_some]
    simp only [isQuantile_iff (show (0 : ℚ) ≤ 1 / 10 by norm_num) (by norm_num),
      isQuantile_iff (show (0 : ℚ) ≤ 9 / 10 by norm_num) (by norm_num), quantile_perm (values_perm hl (values_valids x))]
  unfold smallSignal at hs
  by_cases h0 : amplitude out.residuals = some 0
  · rw [if_pos h0] at hs
    cases hs
  · rw [if_neg h0] at hs
    have hs' : cellCmp (fun a b => decide (a < b)) (cellDiv (amplitude out.ratio) (amplitude out.residuals)) (some o.significance) =
        out.small := by
      injection hs
    have hne : ∀ c d, IsQuantile res (1 / 10) c → IsQuantile res (9 / 10) d → c ≠ d := by
      rintro c d hc hd rfl
      exact h0 ((amp hres 0).mpr ⟨c, c, hc, hd, by ring⟩)
    refine ⟨?_, hne⟩
    rw [← hs']
    constructor
    · intro h
      cases hq : cellDiv (amplitude out.ratio) (amplitude out.residuals) with
      | none => rw [hq] at h; simp [cellCmp] at h
      | some q =>
        rw [hq] at h
        obtain ⟨x, y, hx, hy, -, rfl⟩ := cellDiv_some.mp hq
        obtain ⟨a, b, ha, hb, rfl⟩ := (amp hsr x).mp hx
        obtain ⟨c, d, hc, hd, rfl⟩ := (amp hres y).mp hy
        exact ⟨a, b, c, d, ha, hb, hc, hd, by simpa [cellCmp] using h⟩
    · rintro ⟨a, b, c, d, ha, hb, hc, hd, hlt⟩
      have hq : cellDiv (amplitude out.ratio) (amplitude out.residuals) = some ((b - a) / (d - c)) :=
        cellDiv_some.mpr ⟨_, _, (amp hsr _).mpr ⟨a, b, ha, hb, rfl⟩, (amp hres _).mpr ⟨c, d, hc, hd, rfl⟩,
          sub_ne_zero.mpr (hne c d hc hd).symm, rfl⟩
      rw [hq]
      simpa [cellCmp] using hlt

/-! ## Concrete cases -/

example : Spec.envLengths exEnv := by
  intro x s t h
  cases h
  simp
-- of the eight iterations allowed three assume perfect cleaning, and after one round without it the error does not improve any more
example : (decompose exEnv 3 { order := [.SR, .Rd], maxIterations := 8 } 19000 exPi).map (fun d => (d.log, d.small)) =
    .ok ([(.SR, true), (.Rd, true), (.SR, true), (.SR, false), (.Rd, false)], true) := by decide +kernel
-- half of the iterations
example : (decompose exEnv 3 { order := [.SR, .Rd], maxIterations := 4, criterion := -1 } 19000 exPi).map (fun d => d.log) =
    .ok [(.SR, true), (.Rd, true), (.SR, false), (.Rd, false)] := by decide +kernel
-- the season with its trend, and the error
example : (decompose exEnv 3 { order := [.SR, .SC, .Rd], stl := true, maxIterations := 8 } 19000 exPi).map
    (fun d => (d.log.length, d.degradation, d.rmse)) = .ok (5, -73 / 2, some (45 / 196)) := by decide +kernel

end Verif.Cods
