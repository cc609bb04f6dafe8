import Verif.Model.Plotting
import Verif.Props.AvailOutages
import Verif.Props.AvailState

/-! # Property C89 (availability figure) -/

namespace Verif.Plots
open Verif Verif.Avail

theorem bindOk {α β : Type} {x : Except PyErr α} {f : α → Except PyErr β} {b : β} :
    x.bind f = .ok b ↔ ∃ a, x = .ok a ∧ f a = .ok b := by
  cases x <;> simp [Except.bind]

theorem mapM_ok_of {α β : Type} {f : α → Except PyErr β} {l : List α} (h : ∀ a ∈ l, ∃ b, f a = .ok b) :
    ∃ r, l.mapM f = .ok r := by
  induction l with
  | nil => exact ⟨[], rfl⟩
  | cons a l ih =>
    obtain ⟨b, hb⟩ := h a (by simp)
    obtain ⟨r, hr⟩ := ih fun x hx => h x (by simp [hx])
    exact ⟨b :: r, by rw [List.mapM_cons, hb, hr]; rfl⟩

theorem cumsumC_length (a : ℚ) (l : List Cell) : (cumsumC a l).length = l.length := by
  induction l generalizing a with
  | nil => rfl
  | cons c l ih => cases c <;> simp [cumsumC, ih]

theorem cumsumC_last (a : ℚ) {l : List Cell} {x : ℚ} (h : l.getLast? = some (some x)) :
    (cumsumC a l).getLast? = some (some (a + (valids l).sum)) := by
  induction l generalizing a with
  | nil => simp at h
  | cons c l ih =>
    by_cases hl : l = []
    · subst hl
      simp only [List.getLast?_singleton, Option.some.injEq] at h
      subst h
      simp [cumsumC, valids]
    · have h' : l.getLast? = some (some x) := by
        rw [List.getLast?_cons, List.getLast?_eq_some_getLast hl] at h
        rw [List.getLast?_eq_some_getLast hl]
        simpa using h
      have hne : ∀ b, cumsumC b l ≠ [] := fun b h0 => hl (List.eq_nil_of_length_eq_zero (by
        rw [← cumsumC_length b l, h0]; rfl))
      cases c with
      | none =>
        simp only [cumsumC]
        rw [List.getLast?_cons, ih a h']
        simp [valids]
      | some y =>
        simp only [cumsumC]
        rw [List.getLast?_cons, ih _ h']
        simp [valids, add_assoc]

theorem slice_length {α : Type} {l : List α} {s e : Nat} (h : s ≤ e) (he : e < l.length) :
    (slice l s e).length = e - s + 1 := by
  unfold slice; simp; omega

theorem slice_last {α : Type} {l : List α} {s e : Nat} (h : s ≤ e) (he : e < l.length) :
    (slice l s e).getLast? = l[e]? := by
  rw [List.getLast?_eq_getElem?, slice_length h he]
  unfold slice
  rw [List.getElem?_take_of_lt (by omega), List.getElem?_drop]
  congr 1; omega

theorem slice_zip_fst {α β : Type} {l : List α} {k : List β} (h : l.length = k.length) (s e : Nat) :
    (slice (l.zip k) s e).map Prod.fst = slice l s e := by
  unfold slice
  rw [List.map_take, List.map_drop, List.map_fst_zip h.le]

/-- attributes after a successful run -/
theorem run_ok {a : Args} {o o' : Obj} (h : run a o = (o', .ok ())) :
    ∃ d outs sl, o'.input = o.input ∧ errorDistributions a o.input (lossSubsystem a o.input).loss = .ok d ∧
      outageInfo o.input (lossSubsystem a o.input).mask d = .ok outs ∧ o'.dist = some d ∧
      o'.outages = some outs ∧ o'.total = some (lossTotal (lossSubsystem a o.input).loss sl) := by
  unfold run at h
  simp only at h
  cases hd : errorDistributions a o.input (lossSubsystem a o.input).loss with
  | error e => simp [hd] at h
  | ok d =>
    rw [hd] at h
    simp only at h
    cases ho : outageInfo o.input (lossSubsystem a o.input).mask d with
    | error e => simp [ho] at h
    | ok outs =>
      rw [ho] at h
      simp only at h
      cases hs : systemLoss o.input outs with
      | error e => simp [hs] at h
      | ok sl =>
        rw [hs] at h
        simp only at h
        cases hc : Avail.combine a o.input (lossTotal (lossSubsystem a o.input).loss sl.loss) sl.corrected with
        | error e => simp [hc] at h
        | ok rows =>
          rw [hc] at h
          simp only [Prod.mk.injEq, and_true] at h
          subst h
          exact ⟨d, outs, sl.loss, rfl, rfl, ho, rfl, rfl, rfl⟩

theorem energyR_length {a : Args} {i : Input} {loss : List ℚ} {d : ErrorDist}
    (h : errorDistributions a i loss = .ok d) : d.energyR.length = i.index.length := by
  unfold errorDistributions at h
  simp only at h
  obtain ⟨en, he, h⟩ := bindOk.mp h
  obtain ⟨me, -, h⟩ := bindOk.mp h
  split_ifs at h
  obtain ⟨lo, -, h⟩ := bindOk.mp h
  obtain ⟨up, -, h⟩ := bindOk.mp h
  cases h
  simp only
  unfold energyOn at he
  cases hE : energyFromPower (i.index.zip (i.expected.map fun x => cellDiv x (cellDiv
      (some (valids (select (normalMask i loss) i.expected)).sum)
      (some (valids (select (normalMask i loss) i.system)).sum)))) none none .rightLabeled i.freq with
  | error e => rw [hE] at he; cases he
  | ok e => rw [hE] at he; cases he; simp

/-- rows of an outage are rows of the data -/
theorem outage_rows {i : Input} {mask : List (List Bool)} {d : ErrorDist} {outs : List Outage}
    (hl : mask.length = i.expected.length) (h : outageInfo i mask d = .ok outs) {o : Outage} (ho : o ∈ outs) :
    o.first ≤ o.last ∧ o.last < mask.length := by
  have hb := outageInfo_bounds h
  have hfl := fullOutage_length (i := i) hl
  have hm : (o.first, o.last) ∈ outageBounds (fullOutage (maskedOffline i mask)) := by
    rw [← hb]; exact List.mem_map_of_mem ho
  by_cases hf : false ∈ fullOutage (maskedOffline i mask)
  · rw [outageBounds_runs hf] at hm
    have := (runsFrom_bounds _ 0).1 _ hm
    simp only at this
    omega
  · rw [outageBounds_all hf] at hm
    simp at hm

/-- the input columns have one entry per timestamp -/
structure Spec.Rectangular (i : Input) : Prop where
  system : i.system.length = i.index.length
  subs : i.subs.length = i.index.length
  cum : i.cum.length = i.index.length
  expected : i.expected.length = i.index.length

theorem outageMark_ok {index : List Int} {energy : List Cell} (hl : energy.length = index.length) {o : Outage}
    (h : o.first ≤ o.last) (hlast : o.last < index.length) (k : Nat) :
    ∃ m, outageMark index energy k o = .ok m ∧ m.curve.map Prod.fst = slice index o.first o.last ∧
      m.curve.map Prod.snd = (cumsumC 0 (slice energy o.first o.last)).map
        (fun c => cellOp (fun a b => a + b) c o.energyStart) ∧
      m.curve.getLast? = some (m.time, m.centre) ∧ index[o.last]? = some m.time ∧
      m.down = |o.expected - o.ciLower| ∧ m.up = |o.expected - o.ciUpper| ∧ m.legend = decide (k = 0) := by
  unfold outageMark
  simp only
  rw [slice_zip_fst hl.symm]
  have hlen : ((cumsumC 0 (slice energy o.first o.last)).map
      (fun c => cellOp (fun a b => a + b) c o.energyStart)).length = o.last - o.first + 1 := by
    rw [List.length_map, cumsumC_length, slice_length h (by omega)]
  have hlen' := slice_length h hlast
  generalize (cumsumC 0 (slice energy o.first o.last)).map
      (fun c => cellOp (fun a b => a + b) c o.energyStart) = v at hlen ⊢
  have hz : (List.zip (slice index o.first o.last) v).getLast? =
      ((slice index o.first o.last)[o.last - o.first]?).bind fun t => (v[o.last - o.first]?).map fun c => (t, c) := by
    rw [List.getLast?_eq_getElem?, List.length_zip, hlen, hlen', min_self, Nat.add_sub_cancel, List.zip,
      List.getElem?_zipWith]
    cases (slice index o.first o.last)[o.last - o.first]? <;>
      cases v[o.last - o.first]? <;> rfl
  have hi := slice_last h hlast
  rw [List.getLast?_eq_getElem?, hlen', Nat.add_sub_cancel] at hi
  have hv : ∃ c, v[o.last - o.first]? = some c :=
    ⟨_, List.getElem?_eq_getElem (by omega)⟩
  obtain ⟨c, hc⟩ := hv
  rw [hi, List.getElem?_eq_getElem hlast, hc] at hz
  simp only [Option.bind_some, Option.map_some] at hz
  rw [hz]
  refine ⟨_, rfl, List.map_fst_zip (by omega), List.map_snd_zip (by omega), ?_, ?_, rfl, rfl, rfl⟩
  · simp only
    rw [hz, List.getD_eq_getElem?_getD, List.getElem?_eq_getElem hlast]
    rfl
  · simp only
    rw [List.getD_eq_getElem?_getD, List.getElem?_eq_getElem hlast]
    rfl

/-- the marks of a figure -/
theorem plot_marks_of {a : Args} {o o' : Obj} {d : ErrorDist} {outs : List Outage} {sl : List Cell} (hr : Spec.Rectangular o.input)
    (hin : o'.input = o.input) (hd : errorDistributions a o.input (lossSubsystem a o.input).loss = .ok d)
    (ho : outageInfo o.input (lossSubsystem a o.input).mask d = .ok outs) (h1 : o'.dist = some d)
    (h2 : o'.outages = some outs) (h3 : o'.total = some (lossTotal (lossSubsystem a o.input).loss sl)) :
    ∃ fig outs t d, objPlot o' = .ok fig ∧ o'.outages = some outs ∧ o'.total = some t ∧ o'.dist = some d ∧
      d.energyR.length = o.input.index.length ∧
      fig.system = o.input.index.zip o.input.system ∧ fig.subs = o.input.index.zip o.input.subs ∧
      fig.cumulative = o.input.index.zip o.input.cum ∧ fig.lost = o.input.index.zip t ∧
      fig.outages.length = outs.length ∧
      ∀ k m x, fig.outages[k]? = some m → outs[k]? = some x →
        outageMark o.input.index d.energyR k x = .ok m ∧ outageRecord o.input d x.first x.last = .ok x ∧
        x.first ≤ x.last ∧ x.last < o.input.index.length := by
  have hen := energyR_length hd
  have hmask : (lossSubsystem a o.input).mask.length = o.input.index.length := by
    unfold lossSubsystem; simp [hr.subs]
  have hrows : ∀ x ∈ outs, x.first ≤ x.last ∧ x.last < o.input.index.length := by
    intro x hx
    have := outage_rows (by rw [hmask, hr.expected]) ho hx
    rwa [hmask] at this
  obtain ⟨m, hm⟩ := mapM_ok_of (f := fun x : Outage × Nat => outageMark o.input.index d.energyR x.2 x.1)
    (l := outs.zipIdx) (fun x hx => by
      have hx' : x.1 ∈ outs := by
        have := List.mem_map_of_mem (f := Prod.fst) hx
        rwa [List.zipIdx_map_fst] at this
      obtain ⟨b, hb, -⟩ := outageMark_ok hen (hrows _ hx').1 (hrows _ hx').2 x.2
      exact ⟨b, hb⟩)
  have hf2 := exceptMapM_ok hm
  have hlen : m.length = outs.length := by rw [← hf2.length_eq]; simp
  have hobj : objPlot o' = .ok
      { system := o.input.index.zip o.input.system, subs := o.input.index.zip o.input.subs
        cumulative := o.input.index.zip o.input.cum
        lost := o.input.index.zip (lossTotal (lossSubsystem a o.input).loss sl), outages := m } := by
    unfold objPlot
    rw [h3, h1, h2]
    simp only [availabilityPlot, hin]
    rw [hm]
    rfl
  refine ⟨_, outs, _, d, hobj, h2, h3, h1, hen, rfl, rfl, rfl, rfl, hlen, ?_⟩
  · intro k mk x hk hx
    simp only at hk
    have hxm : x ∈ outs := List.mem_of_getElem? hx
    refine ⟨?_, outageInfo_mem ho hxm, hrows x hxm⟩
    have hkl : k < outs.length := (List.getElem?_eq_some_iff.mp hx).1
    have := List.Forall₂.get hf2 (i := k) (by simpa using hkl) (by omega)
    simp only [List.get_eq_getElem, List.getElem_zipIdx] at this
    rw [List.getElem?_eq_getElem (by omega), Option.some.injEq] at hk
    rw [List.getElem?_eq_getElem hkl, Option.some.injEq] at hx
    rw [hk, hx] at this
    simpa using this

/-- the marks of a figure after a run -/
theorem plot_marks {a : Args} {o o' : Obj} (hr : Spec.Rectangular o.input) (h : run a o = (o', .ok ())) :
    ∃ fig outs t d, objPlot o' = .ok fig ∧ o'.outages = some outs ∧ o'.total = some t ∧ o'.dist = some d ∧
      d.energyR.length = o.input.index.length ∧
      fig.system = o.input.index.zip o.input.system ∧ fig.subs = o.input.index.zip o.input.subs ∧
      fig.cumulative = o.input.index.zip o.input.cum ∧ fig.lost = o.input.index.zip t ∧
      fig.outages.length = outs.length ∧
      ∀ k m x, fig.outages[k]? = some m → outs[k]? = some x →
        outageMark o.input.index d.energyR k x = .ok m ∧ outageRecord o.input d x.first x.last = .ok x ∧
        x.first ≤ x.last ∧ x.last < o.input.index.length := by
  obtain ⟨d, outs, sl, hin, hd, ho, h1, h2, h3⟩ := run_ok h
  exact plot_marks_of hr hin hd ho h1 h2 h3

/-- **C89 (figure after a run).** After a successful run a figure can be drawn. It shows the unchanged inputs, the
total loss, and one mark for each reported outage, in order; the first one alone has an entry in the legend, and
each curve covers exactly the timestamps of its outage. -/
theorem C89_after_run {a : Args} {o o' : Obj} (hr : Spec.Rectangular o.input) (h : run a o = (o', .ok ())) :
    ∃ fig outs t, objPlot o' = .ok fig ∧ o'.outages = some outs ∧ o'.total = some t ∧
      fig.system = o.input.index.zip o.input.system ∧ fig.subs = o.input.index.zip o.input.subs ∧
      fig.cumulative = o.input.index.zip o.input.cum ∧ fig.lost = o.input.index.zip t ∧
      fig.outages.length = outs.length ∧
      ∀ k m x, fig.outages[k]? = some m → outs[k]? = some x →
        (m.legend = true ↔ k = 0) ∧
        m.curve.map Prod.fst = (o.input.index.drop x.first).take (x.last + 1 - x.first) := by
  obtain ⟨fig, outs, t, d, h1, h2, h3, -, hen, h4, h5, h6, h7, h8, h9⟩ := plot_marks hr h
  refine ⟨fig, outs, t, h1, h2, h3, h4, h5, h6, h7, h8, fun k m x hm hx => ?_⟩
  obtain ⟨hmark, -, hle, hlt⟩ := h9 k m x hm hx
  obtain ⟨m', hm', c1, -, -, -, -, -, c7⟩ := outageMark_ok hen hle hlt k
  rw [hmark] at hm'
  cases hm'
  refine ⟨by rw [c7]; simp, ?_⟩
  rw [c1]
  unfold slice
  congr 1; omega

/-- **C89 (before a run).** A new object has nothing to plot: TypeError. After a first run that failed it is the same,
unless only the roll-up failed; then the losses are there and the figure can be drawn. -/
theorem C89_before_run (i : Input) :
    objPlot (Spec.fresh i) = .error .typeError ∧
    ∀ (a : Args) (o' : Obj) (e : PyErr), run a (Spec.fresh i) = (o', .error e) →
      o'.results = none ∧ (objPlot o' = .error .typeError ∨
        (Spec.Rectangular i → ∃ fig t, objPlot o' = .ok fig ∧ o'.total = some t ∧ fig.lost = i.index.zip t)) := by
  refine ⟨rfl, fun a o' e h => ?_⟩
  unfold run at h
  simp only [show (Spec.fresh i).input = i from rfl] at h
  cases hd : errorDistributions a i (lossSubsystem a i).loss with
  | error e => rw [hd] at h; simp only [Prod.mk.injEq] at h; obtain ⟨rfl, -⟩ := h; exact ⟨rfl, Or.inl rfl⟩
  | ok d =>
    rw [hd] at h
    simp only at h
    cases ho : outageInfo i (lossSubsystem a i).mask d with
    | error e => rw [ho] at h; simp only [Prod.mk.injEq] at h; obtain ⟨rfl, -⟩ := h; exact ⟨rfl, Or.inl rfl⟩
    | ok outs =>
      rw [ho] at h
      simp only at h
      cases hs : systemLoss i outs with
      | error e => rw [hs] at h; simp only [Prod.mk.injEq] at h; obtain ⟨rfl, -⟩ := h; exact ⟨rfl, Or.inl rfl⟩
      | ok sl =>
        rw [hs] at h
        simp only at h
        cases hc : Avail.combine a i (lossTotal (lossSubsystem a i).loss sl.loss) sl.corrected with
        | ok rows => rw [hc] at h; simp at h
        | error e' =>
          rw [hc] at h
          simp only [Prod.mk.injEq] at h
          obtain ⟨rfl, -⟩ := h
          refine ⟨rfl, Or.inr fun hr => ?_⟩
          obtain ⟨fig, outs', t, d', g1, -, g3, -, -, -, -, -, g7, -⟩ := plot_marks_of (o := Spec.fresh i)
            (o' := ⟨i, some (lossSubsystem a i), some d, some outs, some sl, some (lossTotal (lossSubsystem a i).loss sl.loss), none⟩)
            hr rfl hd ho rfl rfl rfl
          exact ⟨fig, t, g1, g3, g7⟩

/-- **C89 (end of the curve).** If the meter reading before the outage and the expected energy of its last interval
are present, the curve of the expected production ends at that reading plus the reported expected energy, and the
error bar is centred there. -/
theorem C89_curve_end {a : Args} {o o' : Obj} (hr : Spec.Rectangular o.input) (h : run a o = (o', .ok ()))
    {fig : AvailFig} (hf : objPlot o' = .ok fig) {outs : List Outage} (ho : o'.outages = some outs)
    {d : ErrorDist} (hd : o'.dist = some d) {k : Nat} {m : OutageMark} {x : Outage} (hm : fig.outages[k]? = some m)
    (hx : outs[k]? = some x) {e v : ℚ} (he : x.energyStart = some e) (hv : d.energyR[x.last]? = some (some v)) :
    m.centre = some (e + x.expected) ∧ m.curve.getLast? = some (m.time, m.centre) ∧
      o.input.index[x.last]? = some m.time := by
  obtain ⟨fig', outs', t, d', h1, h2, -, h3, hen, -, -, -, -, -, h9⟩ := plot_marks hr h
  rw [hf] at h1; cases h1
  rw [ho] at h2; cases h2
  rw [hd] at h3; cases h3
  obtain ⟨hmark, hrec, hle, hlt⟩ := h9 k m x hm hx
  obtain ⟨m', hm', -, c2, c3, c4, -⟩ := outageMark_ok hen hle hlt k
  rw [hmark] at hm'
  cases hm'
  refine ⟨?_, c3, c4⟩
  have hl : (slice d.energyR x.first x.last).getLast? = some (some v) := by
    rw [slice_last hle (by omega), hv]
  have h1 : (m.curve.map Prod.snd).getLast? = some m.centre := by
    rw [List.getLast?_map, c3]; rfl
  rw [c2, List.getLast?_map, cumsumC_last 0 hl] at h1
  simp only [Option.map_some, Option.some.injEq, he, zero_add] at h1
  rw [← h1, (outageRecord_ok hrec).2.2.2.2.2.1, add_comm]
  rfl

/-- **C89 (error bar), partial.** If the error quantiles of the outage enclose zero and the expected energy is not
negative, the error bar reaches exactly from the lower to the upper bound of the reported interval, counted from
the meter reading before the outage. Missing: quantiles on one side of zero, see the next theorem. -/
theorem C89_error_bar_partial {a : Args} {o o' : Obj} (hr : Spec.Rectangular o.input) (h : run a o = (o', .ok ()))
    {fig : AvailFig} (hf : objPlot o' = .ok fig) {outs : List Outage} (ho : o'.outages = some outs)
    {k : Nat} {m : OutageMark} {x : Outage} (hm : fig.outages[k]? = some m)
    (hx : outs[k]? = some x) {e : ℚ} (hc : m.centre = some (e + x.expected))
    (h0 : 0 ≤ x.expected) (hlo : x.errorLower ≤ 0) (hup : 0 ≤ x.errorUpper) :
    ∃ c, m.centre = some c ∧ c - m.down = e + x.ciLower ∧ c + m.up = e + x.ciUpper := by
  obtain ⟨fig', outs', t, d', h1, h2, -, h3, hen, -, -, -, -, -, h9⟩ := plot_marks hr h
  rw [hf] at h1; cases h1
  rw [ho] at h2; cases h2
  obtain ⟨hmark, hrec, hle, hlt⟩ := h9 k m x hm hx
  obtain ⟨m', hm', -, -, -, -, c5, c6, -⟩ := outageMark_ok hen hle hlt k
  rw [hmark] at hm'
  cases hm'
  have hci : x.ciLower = (1 + x.errorLower) * x.expected ∧ x.ciUpper = (1 + x.errorUpper) * x.expected := by
    have hrec' := outageRecord_ok hrec
    tauto
  refine ⟨_, hc, ?_, ?_⟩
  · rw [c5, hci.1, show x.expected - (1 + x.errorLower) * x.expected = -(x.errorLower * x.expected) by ring,
      abs_of_nonneg (by nlinarith)]
    ring
  · rw [c6, hci.2, show x.expected - (1 + x.errorUpper) * x.expected = -(x.errorUpper * x.expected) by ring,
      abs_neg, abs_of_nonneg (by positivity)]
    ring

/-- one hour in nanoseconds -/
def hr : Int := 3600000000000

/-- hourly data with a low first reading and an outage of two hours -/
def exBias : Input :=
  { index := [0, 1, 2, 3, 4, 5, 6, 7, 8].map (· * hr), freq := some hr
    system := [some 1, some 2, some 2, some 2, some 2, some 0, some 0, some 2, some 2], ncols := 1
    subs := [[some 1], [some 2], [some 2], [some 2], [some 2], [some 0], [some 0], [some 2], [some 2]]
    cum := [some 1, some 3, some 5, some 7, some 9, some 9, some 9, some 11, some 13]
    expected := List.replicate 9 (some 2) }

/-- default thresholds and sizes, quantiles 0.01 and 0.99 -/
def exBiasArgs : Args := ⟨none, none, [], 1 / 100, 99 / 100, some fun t => t / (24 * hr)⟩

/-- **C89 is false in general**: when both error quantiles lie on the same side of zero, the bar is mirrored at the
expected energy. Here the reported interval of the production is from 4 to 4, that is from 13 to 13 on the meter
scale, and the bar reaches from 87/7 to 13. -/
theorem C89_error_bar_refuted :
    (run exBiasArgs (Spec.fresh exBias)).2 = .ok () ∧
    (objPlot (run exBiasArgs (Spec.fresh exBias)).1).map (fun fig => fig.outages.map fun m =>
      (m.centre.map (· - m.down), m.centre.map (· + m.up))) = .ok [(some (87 / 7), some 13)] ∧
    (run exBiasArgs (Spec.fresh exBias)).1.outages.map (fun l => l.map fun x =>
      (x.energyStart, x.ciLower, x.ciUpper)) = some [(some 9, 4, 4)] := by
  refine ⟨?_, ?_, ?_⟩ <;> decide +kernel

-- a roll-up period that does not exist: the run fails, the figure can be drawn
example : (run { exBiasArgs with bin := none } (Spec.fresh exBias)).2 = .error .valueError ∧
    (objPlot (run { exBiasArgs with bin := none } (Spec.fresh exBias)).1).map (fun fig => fig.lost.length) = .ok 9 := by
  refine ⟨?_, ?_⟩ <;> decide +kernel

example : Spec.Rectangular exBias ∧ Spec.Rectangular exSteady :=
  ⟨⟨rfl, rfl, rfl, rfl⟩, ⟨rfl, rfl, rfl, rfl⟩⟩

end Verif.Plots
