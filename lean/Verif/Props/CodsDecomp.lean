import Verif.Lemmas.CodsDecomp
import Verif.Props.CodsRatio
import Verif.Props.CodsSeasonal

/-! # Properties C39 (iterations), C69 (orders), C70 (components multiply to the data), C71 (bounds of the components) -/

namespace Verif.Cods

open Verif

/-! ## Iterations -/

/-- the components fitted: those of the order given, without `Rd` when STL delivers the trend -/
def Spec.fitOrder (o : DecompOpts) : List Comp := if o.stl then o.order.filter (fun c => decide (c ≠ .Rd)) else o.order

theorem fitOrder_eq (o : DecompOpts) : Spec.fitOrder o = effectiveOrder o := rfl

/-- the fits of a successful decomposition: first `l1` assuming perfect cleaning, then `l2` not assuming it. Both parts follow
the given order cyclically from its beginning (so the second part starts with the first component again), together they fit
into the budget, the second part begins only after a whole round, and as soon as half of the budget is used; without a second
part the budget is smaller than a round, and a decomposition ending before the budget is used has refitted every component
without the assumption -/
theorem C39_iterations {e : DecompEnv} {fuel : Nat} {o : DecompOpts} {day0 : Int} {pi : List Cell} {out : Decomp}
    (h : decompose e fuel o day0 pi = .ok out) :
    ∃ l1 l2 : List Comp, out.log = l1.map (fun c => (c, true)) ++ l2.map (fun c => (c, false)) ∧
      Spec.Cyclic (Spec.fitOrder o) l1 ∧ Spec.Cyclic (Spec.fitOrder o) l2 ∧
      l1.length + l2.length ≤ o.maxIterations ∧
      l1.length ≤ max (Spec.fitOrder o).length ((o.maxIterations + 1) / 2) ∧
      (l2 ≠ [] → (Spec.fitOrder o).length ≤ l1.length) ∧
      (l1.length + l2.length < o.maxIterations → (Spec.fitOrder o).length ≤ l2.length) := by
  rw [fitOrder_eq]
  obtain ⟨hs, pce, st, k, h1, -, -, h4⟩ := decompose_ok h
  have hn : 0 < (effectiveOrder o).length := List.length_pos_of_mem hs
  obtain ⟨hI, hle, hend⟩ := loop_inv hn o.maxIterations (initState_inv (e := e) (pi := pi) (pce := pce) hn)
    (by show 0 + _ = _; omega) h1
  rw [h4]
  cases hI with
  | first l hp ho hl hc hi hd hm =>
    refine ⟨l, [], by simp [hl], hc, fun i hi => by simp at hi, by simp; omega, ?_, fun h => absurd rfl h, ?_⟩
    · rcases hd with hd | hd <;> omega
    · intro hlt
      rcases hend with he | ⟨-, hp', -⟩
      · simp at hlt; omega
      · rw [hp] at hp'; cases hp'
  | second l1 l2 hp ho hl hc1 hc2 hi hk hn1 hle1 hm =>
    refine ⟨l1, l2, hl, hc1, hc2, by omega, hle1, fun _ => hn1, ?_⟩
    intro hlt
    rcases hend with he | ⟨-, -, he⟩
    · omega
    · omega

/-- at most `max_iterations` fits -/
theorem C39_budget {e : DecompEnv} {fuel : Nat} {o : DecompOpts} {day0 : Int} {pi : List Cell} {out : Decomp}
    (h : decompose e fuel o day0 pi = .ok out) : out.log.length ≤ o.maxIterations := by
  obtain ⟨l1, l2, hl, -, -, h4, -⟩ := C39_iterations h
  rw [hl]
  simpa using h4

/-- with a budget of two rounds every component is fitted with and without the assumption of perfect cleaning -/
theorem C39_every_component {e : DecompEnv} {fuel : Nat} {o : DecompOpts} {day0 : Int} {pi : List Cell} {out : Decomp}
    (h : decompose e fuel o day0 pi = .ok out) (hm : 2 * (Spec.fitOrder o).length ≤ o.maxIterations) {c : Comp}
    (hc : c ∈ Spec.fitOrder o) : (c, true) ∈ out.log ∧ (c, false) ∈ out.log := by
  obtain ⟨l1, l2, hl, h1, h2, h3, h4, h5, h6⟩ := C39_iterations h
  obtain ⟨i, hi⟩ := List.mem_iff_getElem?.mp hc
  have hlt := (List.getElem?_eq_some_iff.mp hi).1
  have hl2 : (Spec.fitOrder o).length ≤ l2.length := by
    by_contra hcon
    have : ¬ (l1.length + l2.length < o.maxIterations) := fun h => hcon (h6 h)
    have hmax : max (Spec.fitOrder o).length ((o.maxIterations + 1) / 2) = (o.maxIterations + 1) / 2 := by
      apply max_eq_right; omega
    rw [hmax] at h4
    omega
  have hne : l2 ≠ [] := by
    intro he
    rw [he] at hl2
    simp at hl2
    rw [hl2] at hc
    cases hc
  have hl1 := h5 hne
  have m1 : c ∈ l1 := by
    have := h1 i (by omega)
    rw [Nat.mod_eq_of_lt hlt, hi] at this
    exact List.mem_of_getElem? this
  have m2 : c ∈ l2 := by
    have := h2 i (by omega)
    rw [Nat.mod_eq_of_lt hlt, hi] at this
    exact List.mem_of_getElem? this
  rw [hl]
  exact ⟨List.mem_append_left _ (List.mem_map_of_mem m1), List.mem_append_right _ (List.mem_map_of_mem m2)⟩

/-! ## Orders -/

/-- a decomposition only succeeds if the soiling component is the first or second one of the order (after removal of `Rd` with
the STL method), and within the budget -/
theorem C69_position {e : DecompEnv} {fuel : Nat} {o : DecompOpts} {day0 : Int} {pi : List Cell} {out : Decomp}
    (h : decompose e fuel o day0 pi = .ok out) :
    ∃ i, i < 2 ∧ i < o.maxIterations ∧ (Spec.fitOrder o)[i]? = some .SR := by
  rw [fitOrder_eq]
  obtain ⟨hs, pce, st, k, h1, h2, -, h4⟩ := decompose_ok h
  have hn : 0 < (effectiveOrder o).length := List.length_pos_of_mem hs
  have hE : EarlySR st := loop_preserve (P := EarlySR) early_step o.maxIterations
    (st := initState e o pi pce) ⟨rfl, fun h => by cases h⟩ h1
  obtain ⟨i, b, hi, hl⟩ := hE.2 (by rw [h2]; rfl)
  rw [← h4] at hl
  obtain ⟨l1, l2, hlog, c1, c2, hmx, -, hr, -⟩ := C39_iterations h
  rw [hlog] at hl
  have hlt := (List.getElem?_eq_some_iff.mp hl).1
  simp only [List.length_append, List.length_map] at hlt
  have hmem : ∀ {j : Nat} {l : List Comp}, Spec.Cyclic (effectiveOrder o) l → l[j]? = some .SR →
      (effectiveOrder o)[j % (effectiveOrder o).length]? = some .SR := by
    intro j l hc hj
    rw [← hc j (List.getElem?_eq_some_iff.mp hj).1, hj]
  have hle : ∀ {j : Nat}, j ≤ i → j % (effectiveOrder o).length ≤ i := fun hj => (Nat.mod_le _ _).trans hj
  rcases Nat.lt_or_ge i l1.length with hi1 | hi1
  · rw [List.getElem?_append_left (by simpa), List.getElem?_map] at hl
    have hj : l1[i]? = some .SR := by
      cases hx : l1[i]? with
      | none => rw [hx] at hl; cases hl
      | some c => rw [hx] at hl; simp at hl; rw [hl.1]
    have := hle (le_refl i)
    exact ⟨i % (effectiveOrder o).length, by omega, by omega, hmem c1 hj⟩
  · rw [List.getElem?_append_right (by simpa), List.length_map, List.getElem?_map] at hl
    have hj : l2[i - l1.length]? = some .SR := by
      cases hx : l2[i - l1.length]? with
      | none => rw [hx] at hl; cases hl
      | some c => rw [hx] at hl; simp at hl; rw [hl.1]
    have := hle (j := i - l1.length) (by omega)
    exact ⟨(i - l1.length) % (effectiveOrder o).length, by omega, by omega, hmem c2 hj⟩

/-- the documented order `('SC', 'Rd', 'SR')` never gives a result -/
theorem C69_third_refuted (e : DecompEnv) (fuel : Nat) (o : DecompOpts) (day0 : Int) (pi : List Cell) (out : Decomp) :
    decompose e fuel { o with order := [.SC, .Rd, .SR], stl := false } day0 pi ≠ .ok out := by
  intro h
  obtain ⟨i, hi, -, ho⟩ := C69_position h
  have : Spec.fitOrder { o with order := [.SC, .Rd, .SR], stl := false } = [.SC, .Rd, .SR] := rfl
  rw [this] at ho
  obtain rfl | rfl : i = 0 ∨ i = 1 := by omega
  · simp at ho
  · simp at ho

/-! ## Components and data -/

theorem cellAt_zipWith {f : Cell → Cell → Cell} (h1 : ∀ a, f a none = none) (h2 : ∀ a, f none a = none) (a b : List Cell)
    (i : Nat) : cellAt (List.zipWith f a b) i = f (cellAt a i) (cellAt b i) := by
  unfold cellAt
  rw [List.getElem?_zipWith]
  cases ha : a[i]? with
  | none => simp [h2]
  | some x =>
    cases hb : b[i]? with
    | none => simp [h1]
    | some y => rfl

theorem cellAt_div (a b : List Cell) (i : Nat) : cellAt (cellsDiv a b) i = cellDiv (cellAt a i) (cellAt b i) :=
  cellAt_zipWith (fun a => by cases a <;> rfl) (fun a => by cases a <;> rfl) a b i

theorem cellAt_mul (a b : List Cell) (i : Nat) :
    cellAt (cellsMul a b) i = cellOp (fun x y => x * y) (cellAt a i) (cellAt b i) :=
  cellAt_zipWith (fun a => by cases a <;> rfl) (fun a => by cases a <;> rfl) a b i

theorem cellAt_map (g : Cell → Cell) (hg : g none = none) (a : List Cell) (i : Nat) :
    cellAt (a.map g) i = g (cellAt a i) := by
  unfold cellAt
  rw [List.getElem?_map]
  cases a[i]? with
  | none => simp [hg]
  | some x => rfl

/-- the parts of the result -/
theorem finish_ok {e : DecompEnv} {o : DecompOpts} {pi : List Cell} {st : DecompState} {out : Decomp}
    (h : finishDecomp e o pi st = .ok out) : ∃ k, st.df = some k ∧ out.ratio = k.ratio ∧ out.rates = k.rates ∧
      out.events = k.events ∧ out.seasonal = st.seasonal ∧ out.trend = st.trend ∧
      out.residuals = cellsDiv pi (cellsMul (cellsMul out.ratio out.seasonal) out.trend) ∧
      out.shift = cellMean out.residuals ∧
      out.total = (cellsMul (cellsMul out.ratio out.seasonal) out.trend).map (fun c => cellOp (fun x y => x * y) c out.shift) ∧
      out.degradation = st.deg ∧
      out.soilingLoss = (cellMean (out.ratio.map fun c => c.map fun v => 1 - v)).map (· * 100) ∧
      out.rmse = rmse e.sqrt pi out.total ∧ e.adf out.residuals = .ok out.adf ∧
      smallSignal o.significance (amplitude out.ratio) (amplitude out.residuals) = .ok out.small := by
  unfold finishDecomp at h
  cases hk : st.df with
  | none => rw [hk] at h; cases h
  | some k =>
    rw [hk] at h
    obtain ⟨a, ha, h⟩ := bind_ok'.mp h
    obtain ⟨b, hb, h⟩ := bind_ok'.mp h
    cases h
    exact ⟨k, rfl, rfl, rfl, rfl, rfl, rfl, rfl, rfl, rfl, rfl, rfl, rfl, ha, hb⟩

theorem decompose_finish {e : DecompEnv} {fuel : Nat} {o : DecompOpts} {day0 : Int} {pi : List Cell} {out : Decomp}
    (h : decompose e fuel o day0 pi = .ok out) : ∃ st, finishDecomp e o pi st = .ok out ∧ DataInv fuel o day0 pi st := by
  obtain ⟨-, pce, st, k, h1, -, h3, -⟩ := decompose_ok h
  exact ⟨st, h3, (loop_preserve (P := fun st => DataInv fuel o day0 pi st ∧ (o.stl = true → Comp.Rd ∉ st.order))
    dataInv_step o.maxIterations initState_data h1).1⟩

/-- on every day with a residual, the index is the product of soiling ratio, seasonal component, degradation trend and
residual -/
theorem C70_product {e : DecompEnv} {fuel : Nat} {o : DecompOpts} {day0 : Int} {pi : List Cell} {out : Decomp}
    (h : decompose e fuel o day0 pi = .ok out) {i : Nat} {r : ℚ} (hr : cellAt out.residuals i = some r) :
    ∃ s c d, cellAt out.ratio i = some s ∧ cellAt out.seasonal i = some c ∧ cellAt out.trend i = some d ∧
      cellAt pi i = some (s * c * d * r) := by
  obtain ⟨st, hf, -⟩ := decompose_finish h
  obtain ⟨k, -, -, -, -, -, -, hres, -⟩ := finish_ok hf
  rw [hres, cellAt_div, cellAt_mul, cellAt_mul] at hr
  cases h1 : cellAt out.ratio i with
  | none => rw [h1] at hr; simp [cellOp, cellDiv] at hr
  | some s =>
    cases h2 : cellAt out.seasonal i with
    | none => rw [h1, h2] at hr; simp [cellOp, cellDiv] at hr
    | some c =>
      cases h3 : cellAt out.trend i with
      | none => rw [h1, h2, h3] at hr; simp [cellOp, cellDiv] at hr
      | some d =>
        cases h4 : cellAt pi i with
        | none => rw [h1, h2, h3, h4] at hr; simp [cellOp, cellDiv] at hr
        | some p =>
          rw [h1, h2, h3, h4] at hr
          simp only [cellOp, cellDiv] at hr
          by_cases hz : s * c * d = 0
          · rw [if_pos hz] at hr; cases hr
          · rw [if_neg hz] at hr
            refine ⟨s, c, d, rfl, rfl, rfl, ?_⟩
            cases hr
            rw [mul_comm, div_mul_cancel₀ _ hz]

/-- a day has a residual if the index and the components are known and the components are not zero -/
theorem C70_residual {e : DecompEnv} {fuel : Nat} {o : DecompOpts} {day0 : Int} {pi : List Cell} {out : Decomp}
    (h : decompose e fuel o day0 pi = .ok out) {i : Nat} {p s c d : ℚ} (hp : cellAt pi i = some p)
    (hs : cellAt out.ratio i = some s) (hc : cellAt out.seasonal i = some c) (hd : cellAt out.trend i = some d)
    (hz : s * c * d ≠ 0) : cellAt out.residuals i = some (p / (s * c * d)) := by
  obtain ⟨st, hf, -⟩ := decompose_finish h
  obtain ⟨k, -, -, -, -, -, -, hres, -⟩ := finish_ok hf
  rw [hres, cellAt_div, cellAt_mul, cellAt_mul, hp, hs, hc, hd]
  simp only [cellOp, cellDiv]
  rw [if_neg hz]

theorem mean_some {l : List ℚ} {m : ℚ} (h : mean l = some m) : l ≠ [] ∧ m = l.sum / l.length := by
  cases l with
  | nil => cases h
  | cons a l => cases h; exact ⟨List.cons_ne_nil _ _, rfl⟩

/-- the residual shift is the mean of the residuals, and the total model is the product of the components times the shift -/
theorem C70_total {e : DecompEnv} {fuel : Nat} {o : DecompOpts} {day0 : Int} {pi : List Cell} {out : Decomp}
    (h : decompose e fuel o day0 pi = .ok out) {m : ℚ} (hm : out.shift = some m) :
    m = (out.residuals.filterMap id).sum / (out.residuals.filterMap id).length ∧
    ∀ i s c d, cellAt out.ratio i = some s → cellAt out.seasonal i = some c → cellAt out.trend i = some d →
      cellAt out.total i = some (s * c * d * m) := by
  obtain ⟨st, hf, -⟩ := decompose_finish h
  obtain ⟨k, -, -, -, -, -, -, -, hsh, htot, -⟩ := finish_ok hf
  refine ⟨?_, ?_⟩
  · rw [hsh] at hm
    exact (mean_some hm).2
  · intro i s c d h1 h2 h3
    rw [htot, cellAt_map _ (by rfl), cellAt_mul, cellAt_mul, h1, h2, h3, hm]
    rfl

theorem valids_map {g : ℚ → ℚ} (l : List Cell) : valids (l.map fun c => c.map g) = (valids l).map g := by
  unfold valids
  induction l with
  | nil => rfl
  | cons c l ih =>
    cases c with
    | none => simpa using ih
    | some v => simpa using ih

theorem sum_map_div (m : ℚ) (l : List ℚ) : (l.map fun r => r / m).sum = l.sum / m := by
  induction l with
  | nil => simp
  | cons a l ih => simp [ih, add_div]

/-- the quotients of two series on the days with both values, where the second is not zero -/
def Spec.quotients : List Cell → List Cell → List ℚ
  | some p :: a, some t :: b => if t = 0 then Spec.quotients a b else p / t :: Spec.quotients a b
  | _ :: a, _ :: b => Spec.quotients a b
  | _, _ => []

theorem quotients_eq (a b : List Cell) : valids (cellsDiv a b) = Spec.quotients a b := by
  induction a generalizing b with
  | nil => cases b <;> rfl
  | cons x a ih =>
    cases b with
    | nil => cases x <;> rfl
    | cons y b =>
      have e : valids (cellsDiv (x :: a) (y :: b)) = (cellDiv x y).toList ++ valids (cellsDiv a b) := by
        unfold valids cellsDiv
        rw [List.zipWith_cons_cons, List.filterMap_cons]
        cases cellDiv x y <;> rfl
      rw [e, ih]
      cases x with
      | none => cases y <;> rfl
      | some p =>
        cases y with
        | none => rfl
        | some t =>
          simp only [cellDiv, Spec.quotients]
          split_ifs <;> rfl

theorem overlap_mean {e : DecompEnv} {fuel : Nat} {o : DecompOpts} {day0 : Int} {pi : List Cell} {out : Decomp}
    (h : decompose e fuel o day0 pi = .ok out) {m : ℚ} (hm : out.shift = some m) (hm0 : m ≠ 0) :
    cellMean (cellsDiv pi out.total) = some 1 := by
  obtain ⟨st, hf, -⟩ := decompose_finish h
  obtain ⟨k, -, -, -, -, -, -, hres, hsh, htot, -⟩ := finish_ok hf
  have hd : cellsDiv pi out.total = out.residuals.map fun c => c.map fun r => r / m := by
    rw [htot, hres, hm]
    generalize cellsMul (cellsMul out.ratio out.seasonal) out.trend = t
    unfold cellsDiv
    rw [List.zipWith_map_right, List.map_zipWith]
    congr 1
    funext a b
    cases a with
    | none => cases b <;> rfl
    | some x =>
      cases b with
      | none => rfl
      | some y =>
        simp only [cellOp, cellDiv, mul_eq_zero, hm0, or_false]
        split_ifs with hy
        · rfl
        · simp only [Option.map_some]
          congr 1
          field_simp
  rw [hd]
  unfold cellMean
  rw [valids_map]
  rw [hsh] at hm
  obtain ⟨hne, he⟩ := mean_some hm
  have hne' : (valids out.residuals).map (fun r => r / m) ≠ [] := by simpa using hne
  have hl : (valids out.residuals).length ≠ 0 := by simpa using hne
  unfold mean
  split
  · next hx => exact absurd hx hne'
  · rw [sum_map_div, List.length_map]
    have : ((valids out.residuals).length : ℚ) ≠ 0 := by exact_mod_cast hl
    have hs : (valids out.residuals).sum = m * (valids out.residuals).length := by rw [he]; field_simp
    congr 1
    rw [hs]
    field_simp

/-- the total model overlaps the index: the mean of the index divided by the total model is one (for a residual shift other
than zero) -/
theorem C70_overlap {e : DecompEnv} {fuel : Nat} {o : DecompOpts} {day0 : Int} {pi : List Cell} {out : Decomp}
    (h : decompose e fuel o day0 pi = .ok out) {m : ℚ} (hm : out.shift = some m) (hm0 : m ≠ 0) :
    Spec.quotients pi out.total ≠ [] ∧
      (Spec.quotients pi out.total).sum / (Spec.quotients pi out.total).length = 1 := by
  have := overlap_mean h hm hm0
  unfold cellMean at this
  rw [quotients_eq] at this
  obtain ⟨h1, h2⟩ := mean_some this
  exact ⟨h1, h2.symm⟩

/-- the soiling loss is 100 % minus the mean soiling ratio in per cent -/
theorem C70_loss {e : DecompEnv} {fuel : Nat} {o : DecompOpts} {day0 : Int} {pi : List Cell} {out : Decomp}
    (h : decompose e fuel o day0 pi = .ok out) {l : ℚ} (hl : out.soilingLoss = some l) :
    l = 100 - 100 * ((out.ratio.filterMap id).sum / (out.ratio.filterMap id).length) := by
  obtain ⟨st, hf, -⟩ := decompose_finish h
  obtain ⟨k, -, -, -, -, -, -, -, -, -, -, hloss, -⟩ := finish_ok hf
  rw [hloss] at hl
  cases hm : cellMean (out.ratio.map fun c => c.map fun v => 1 - v) with
  | none => rw [hm] at hl; cases hl
  | some m =>
    rw [hm] at hl
    have hl : m * 100 = l := by simpa using hl
    unfold cellMean at hm
    rw [valids_map] at hm
    obtain ⟨hne, he⟩ := mean_some hm
    rw [List.length_map] at he
    have hs : ∀ v : List ℚ, (v.map fun x => 1 - x).sum = v.length - v.sum := by
      intro v
      induction v with
      | nil => simp
      | cons a v ih => simp [ih]; ring
    rw [hs] at he
    have hn : ((valids out.ratio).length : ℚ) ≠ 0 := by
      have : valids out.ratio ≠ [] := by simpa using hne
      exact_mod_cast (by simpa using this : (valids out.ratio).length ≠ 0)
    rw [← hl, he]
    show _ = 100 - 100 * ((valids out.ratio).sum / (valids out.ratio).length)
    field_simp

/-! ## Bounds of the components -/

/-- with clipping the soiling ratio is at most one, the soiling loss is not negative, and the soiling rate is zero on days on
which the ratio does not change -/
theorem C71_ratio {e : DecompEnv} {fuel : Nat} {o : DecompOpts} {day0 : Int} {pi : List Cell} {out : Decomp}
    (h : decompose e fuel o day0 pi = .ok out) (hc : o.clip = true) :
    (∀ v, some v ∈ out.ratio → v ≤ 1) ∧ (∀ l, out.soilingLoss = some l → 0 ≤ l) ∧
      ∀ i v, cellAt out.ratio i = some v → cellAt out.ratio (i + 1) = some v → cellAt out.rates (i + 1) = some 0 := by
  obtain ⟨st, hf, hI⟩ := decompose_finish h
  obtain ⟨k, hk, h1, h2, -⟩ := finish_ok hf
  obtain ⟨-, prn, perf, zs, pre, hkal⟩ := hI.df k hk
  have hr : ∀ v, some v ∈ out.ratio → v ≤ 1 := by rw [h1]; exact C45_clip hkal hc
  refine ⟨hr, ?_, ?_⟩
  · intro l hl
    rw [C70_loss h hl]
    have hsum : ∀ v : List ℚ, (∀ x ∈ v, x ≤ 1) → v.sum ≤ v.length := by
      intro v hv
      induction v with
      | nil => simp
      | cons a v ih =>
        have h1 := hv a (List.mem_cons_self ..)
        have h2 := ih fun x hx => hv x (List.mem_cons_of_mem _ hx)
        simp
        linarith
    have := hsum (out.ratio.filterMap id) (by
      intro x hx
      obtain ⟨c, hc, he⟩ := List.mem_filterMap.mp hx
      simp only [id_eq] at he
      rw [he] at hc
      exact hr x hc)
    have hd : (out.ratio.filterMap id).sum / ((out.ratio.filterMap id).length : ℚ) ≤ 1 := by
      apply div_le_one_of_le₀ this
      exact Nat.cast_nonneg _
    linarith
  · rw [h1, h2]
    intro i v ha hb
    exact C45_rates hkal hc ha hb

/-- with the year-on-year method the degradation trend is linear with the reported rate in % per 365 days, and starts at one -/
theorem C71_trend {e : DecompEnv} {fuel : Nat} {o : DecompOpts} {day0 : Int} {pi : List Cell} {out : Decomp}
    (h : decompose e fuel o day0 pi = .ok out) (hs : o.stl = false) {i : Nat} (hi : i < pi.length) :
    cellAt out.trend i = some (1 + out.degradation / 100 * (i / 365)) := by
  obtain ⟨st, hf, hI⟩ := decompose_finish h
  obtain ⟨k, hk, -, -, -, -, ht, -, -, -, hdeg, -⟩ := finish_ok hf
  rw [ht, hI.trend hs, hdeg]
  unfold linearTrend
  rw [cellAt_range _ hi]
  congr 1
  ring

/-- with the STL method the trend starts at one -/
theorem C71_trend_stl {e : DecompEnv} {fuel : Nat} {o : DecompOpts} {day0 : Int} {pi : List Cell} {out : Decomp}
    (h : decompose e fuel o day0 pi = .ok out) {v : ℚ} (hv : cellAt out.trend 0 = some v) : v = 1 := by
  obtain ⟨st, hf, hI⟩ := decompose_finish h
  obtain ⟨k, hk, -, -, -, -, ht, -⟩ := finish_ok hf
  have hone : ∀ w, cellAt (pi.map fun _ => (some 1 : Cell)) 0 = some w → w = 1 := by
    intro w hw
    have := cellAt_mem hw
    obtain ⟨_, -, e⟩ := List.mem_map.mp this
    cases e
    rfl
  cases hs : o.stl with
  | false =>
    rw [ht, hI.trend hs] at hv
    have : 0 < pi.length := by
      have := cellAt_lt hv
      unfold linearTrend at this
      simpa using this
    unfold linearTrend at hv
    rw [cellAt_range _ this] at hv
    simp at hv
    exact hv.symm
  | true =>
    obtain ⟨-, pce, st', k', h1, -, h3, -⟩ := decompose_ok h
    have hD := loop_preserve (P := fun st => DataInv fuel o day0 pi st ∧ (o.stl = true → Comp.Rd ∉ st.order))
      dataInv_step o.maxIterations initState_data h1
    obtain ⟨k2, -, -, -, -, -, ht', -⟩ := finish_ok h3
    rw [ht'] at hv
    rcases hD.1.stlTrend hs (hD.2 hs) with he | ⟨t, he⟩
    · rw [he] at hv; exact hone v hv
    · rw [he] at hv
      unfold firstNormalized at hv
      rw [cellAt_map _ (by cases cellAt t 0 <;> rfl)] at hv
      cases hc : cellAt t 0 with
      | none => rw [hc] at hv; cases hv
      | some x =>
        rw [hc] at hv
        simp only [cellDiv] at hv
        split_ifs at hv with hx
        cases hv
        exact div_self hx

/-- the seasonal component depends on the day of the year only -/
theorem C71_seasonal {e : DecompEnv} {fuel : Nat} {o : DecompOpts} {day0 : Int} {pi : List Cell} {out : Decomp}
    (h : decompose e fuel o day0 pi = .ok out) {i j : Nat} (hi : i < pi.length) (hj : j < pi.length)
    (hd : dayOfYear (day0 + i) = dayOfYear (day0 + j)) : cellAt out.seasonal i = cellAt out.seasonal j := by
  obtain ⟨st, hf, hI⟩ := decompose_finish h
  obtain ⟨k, hk, -, -, -, hsea, -⟩ := finish_ok hf
  rw [hsea]
  rcases hI.seasonal with he | ⟨sig, he⟩
  · rw [he]
    unfold cellAt
    rw [List.getElem?_map, List.getElem?_map, List.getElem?_eq_getElem hi, List.getElem?_eq_getElem hj]
    rfl
  · rw [he]
    unfold forcePeriodicity daysFrom
    rw [List.map_map, List.map_map, cellAt_range _ hi, cellAt_range _ hj]
    simp only [Function.comp_apply, hd]

end Verif.Cods
