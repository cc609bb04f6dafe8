import Verif.Props.YearOnYear
import Verif.Props.Bootstrap
import Verif.Props.SrrSummaries
import Verif.Lemmas.Quantile

/-! # Property C104 (the bootstrap intervals of the year-on-year rate) -/

namespace Verif
open Spec

/-- `times` and `x` are the data of `s` in time order, divided by the recentering factor `k` -/
def Spec.RecentredOf (s : Series) (k : Cell) (times : List Int) (x : List Cell) : Prop :=
  times.Pairwise (· < ·) ∧ times.Perm (s.map Prod.fst) ∧ x.length = times.length ∧
    ∀ (t : Int) (v : ℚ), (t, some v) ∈ times.zip x ↔
      ∃ e q, (t, some e) ∈ s ∧ k = some q ∧ q ≠ 0 ∧ v = e / q

/-- the straight line of slope `rd` percent a year through one, at row `k` of `n` rows spread evenly
over the whole days between `first` and `last` -/
def Spec.lineAt (rd : ℚ) (first last : Int) (n : Nat) (k : Nat) : ℚ :=
  1 + rd / 100 * ((k : ℚ) * (((last - first) / dayNs : Int) : ℚ) / n / 365)

/-- `y` is `line` times the quotients `x / line` taken in circular blocks of length `block` that begin at
the rows `starts` -/
def Spec.BlockResample (line : Nat → ℚ) (x : List Cell) (block : Nat) (starts : List Nat) (y : List Cell) : Prop :=
  y.length = x.length ∧ ∀ (j : Nat) (v : ℚ), j < x.length →
    (y[j]? = some (some v) ↔
      ∃ a, x[(starts.getD (j / block) 0 + j % block) % x.length]? = some (some a) ∧
        line ((starts.getD (j / block) 0 + j % block) % x.length) ≠ 0 ∧
        v = line j * (a / line ((starts.getD (j / block) 0 + j % block) % x.length)))

variable {inferFreq : List Int → Option Int} {recenter : Bool} {exceed conf : ℚ}
  {method : Uncertainty} {block : Nat} {choose : List ℚ → List (List ℚ)} {draws : List (List Nat)}
  {s : Series} {r : YoYResult}

theorem confidenceInterval_isQuantile {l : List ℚ} {ci : (ℚ × ℚ) × ℚ}
    (h : confidenceInterval l exceed conf = .ok ci) :
    IsQuantile l ((50 - conf / 2) / 100) ci.1.1 ∧ IsQuantile l ((50 + conf / 2) / 100) ci.1.2 ∧
      IsQuantile l ((100 - exceed) / 100) ci.2 := by
  obtain ⟨h1, h2, h3⟩ := confidenceInterval_ok h
  have key : ∀ p v : ℚ, percentileE l p = .ok v → IsQuantile l (p / 100) v := fun p v hp => by
    obtain ⟨a, b, c⟩ := percentileE_ok hp
    exact (isQuantile_iff (by positivity) (by linarith)).mpr c
  exact ⟨key _ _ h1, key _ _ h2, key _ _ h3⟩

theorem filterMap_median_forall₂ : ∀ {ls : List (List ℚ)}, (∀ l ∈ ls, l ≠ []) →
    List.Forall₂ (fun l m => IsMedian l m) ls (ls.filterMap median)
  | [], _ => .nil
  | l :: ls, h => by
    have hl : l ≠ [] := h l (by simp)
    cases hm : median l with
    | none =>
      cases l with
      | nil => exact absurd rfl hl
      | cons a l => exact absurd hm (by simp [median, quantile])
    | some m =>
      rw [List.filterMap_cons, hm]
      exact .cons (isMedian_iff.mpr hm) (filterMap_median_forall₂ fun l' hl' => h l' (by simp [hl']))

/-- **C104 (simple bootstrap).** The interval and the exceedance level are the percentiles of the
medians of the samples drawn from the year-on-year values. -/
theorem C104_simple
    (h : yoy inferFreq recenter exceed conf .simple block choose draws s = .ok r)
    (hch : ∀ l ∈ choose (r.values.map Prod.snd), l ≠ []) :
    ∃ medians lo hi e, List.Forall₂ (fun l m => IsMedian l m) (choose (r.values.map Prod.snd)) medians ∧
      r.ci = some (lo, hi) ∧ r.exceedance = some e ∧
      IsQuantile medians ((50 - conf / 2) / 100) lo ∧ IsQuantile medians ((50 + conf / 2) / 100) hi ∧
      IsQuantile medians ((100 - exceed) / 100) e := by
  obtain ⟨ci, hci, h1, h2⟩ := yoy_simple_ok h
  obtain ⟨q1, q2, q3⟩ := confidenceInterval_isQuantile hci
  exact ⟨_, ci.1.1, ci.1.2, ci.2, filterMap_median_forall₂ hch, h1, h2, q1, q2, q3⟩

example : (∀ l ∈ (fun l : List ℚ => [l, l.take 1]) [1, 3], l ≠ []) ∧
    (yoy noFreq false 95 68 .simple 30 (fun l : List ℚ => [l, l.take 1]) [] exampleYoY).toOption.isSome = true :=
  ⟨by decide +kernel, by decide +kernel⟩

theorem yoyTrend_length (rd : ℚ) (s : Series) : (yoyTrend rd s).length = s.length := by simp [yoyTrend]

theorem yoyTrend_getElem {rd : ℚ} {s : Series} {k : Nat} (hk : k < s.length) :
    (yoyTrend rd s)[k]? = some (some (lineAt rd ((s.map Prod.fst).headD 0) ((s.map Prod.fst).getLastD 0)
      s.length k)) := by
  unfold yoyTrend lineAt
  simp only [List.getElem?_map, List.getElem?_range hk, Option.map_some, Option.some.injEq]
  ring

theorem blockIndices_length {n block : Nat} {starts : List Nat} (hn : n ≤ starts.length * block) :
    (blockIndices n block starts).length = n := by
  unfold blockIndices
  rw [List.length_take]
  have : (starts.flatMap fun s => (List.range block).map fun k => (s + k) % n).length = starts.length * block := by
    clear hn
    induction starts with
    | nil => simp
    | cons a l ih => simp only [List.flatMap_cons, List.length_append, List.length_map, List.length_range, ih,
        List.length_cons]; ring
  omega

theorem blockResample_of {rd : ℚ} {s : Series} {block : Nat} {starts : List Nat} (hb : 0 < block)
    (hn : s.length ≤ starts.length * block) :
    BlockResample (lineAt rd ((s.map Prod.fst).headD 0) ((s.map Prod.fst).getLastD 0) s.length)
      (s.map Prod.snd) block starts
      (List.zipWith (recombineAt true) (yoyTrend rd s)
        ((blockIndices (s.map Prod.snd).length block starts).map fun i =>
          ((List.zipWith (residualAt true) (s.map Prod.snd) (yoyTrend rd s))[i]?).join)) := by
  have hl : (s.map Prod.snd).length = s.length := by simp
  refine ⟨by simp [yoyTrend_length, blockIndices_length hn], fun j v hj => ?_⟩
  rw [hl] at hj ⊢
  have hdiv : j / block < starts.length := by
    rw [Nat.div_lt_iff_lt_mul hb]; omega
  set i := (starts.getD (j / block) 0 + j % block) % s.length with hi
  have hil : i < s.length := Nat.mod_lt _ (by omega)
  have hx : (s.map Prod.snd)[i]? = some ((s.map Prod.snd)[i]'(by rw [hl]; exact hil)) :=
    List.getElem?_eq_getElem _
  rw [List.getElem?_zipWith, List.getElem?_map, C30_circular_blocks hb hj hdiv, ← hi, yoyTrend_getElem hj]
  simp only [Option.map_some, List.getElem?_zipWith, yoyTrend_getElem hil, hx]
  generalize (s.map Prod.snd)[i]'(by rw [hl]; exact hil) = a
  generalize lineAt rd ((s.map Prod.fst).headD 0) ((s.map Prod.fst).getLastD 0) s.length i = ti
  generalize lineAt rd ((s.map Prod.fst).headD 0) ((s.map Prod.fst).getLastD 0) s.length j = tj
  cases a with
  | none => simp [residualAt, recombineAt, cellOp]
  | some a =>
    by_cases h0 : ti = 0
    · simp [residualAt, recombineAt, cellOp, h0]
    · simp [residualAt, recombineAt, cellOp, h0, eq_comm]

/-- **C104 (circular block bootstrap).** The interval and the exceedance level are the percentiles of the
rates that `degradation_year_on_year` itself finds, without recentering, on resampled series: the
recentred data in time order are divided by a straight line with the reported rate, the quotients are
resampled in circular blocks, and multiplied back by the line. -/
theorem C104_circular
    (h : yoy inferFreq recenter exceed conf .circularBlock block choose draws s = .ok r)
    (hd : (s.map Prod.fst).Nodup) (hb : 0 < block)
    (hn : ∀ starts ∈ draws, s.length ≤ starts.length * block) :
    ∃ times x rates lo hi e, RecentredOf s r.renorm times x ∧
      List.Forall₂ (fun starts rate =>
        ∃ y r', BlockResample (lineAt r.rd (times.headD 0) (times.getLastD 0) times.length) x block starts y ∧
          yoy inferFreq false exceed conf .none block choose draws (times.zip y) = .ok r' ∧ r'.rd = rate)
        draws rates ∧
      r.ci = some (lo, hi) ∧ r.exceedance = some e ∧
      IsQuantile rates ((50 - conf / 2) / 100) lo ∧ IsQuantile rates ((50 + conf / 2) / 100) hi ∧
      IsQuantile rates ((100 - exceed) / 100) e := by
  obtain ⟨c, hc, hrd, hrn, -, -⟩ := yoy_ok h
  obtain ⟨-, hs, -, -, -⟩ := yoyCore_ok hc
  have hkeys : c.sorted.map Prod.fst = (sortIndex s).map Prod.fst := by rw [hs, renormalize_keys]
  have hlen : c.sorted.length = s.length := by
    have h1 := congrArg List.length hkeys
    simp only [List.length_map] at h1
    rw [h1, (sortIndex_perm s).length_eq]
  unfold yoy at h
  rw [hc] at h
  simp only [Except.bind, bootstrapSamples, decide_true] at h
  generalize hsm : (draws.map fun starts => List.zipWith (recombineAt true) (yoyTrend c.rd c.sorted)
        ((blockIndices (c.sorted.map Prod.snd).length block starts).map fun i =>
          ((List.zipWith (residualAt true) (c.sorted.map Prod.snd) (yoyTrend c.rd c.sorted))[i]?).join))
    = samples at h
  cases hm : samples.mapM fun v =>
      (yoyCore inferFreq false none ((c.sorted.map Prod.fst).zip v)).map YoYCore.rd with
  | error e => rw [hm] at h; exact absurd h (by simp)
  | ok rates =>
    rw [hm] at h
    simp only at h
    cases hci : confidenceInterval rates exceed conf with
    | error e => rw [hci] at h; exact absurd h (by simp)
    | ok ci =>
      rw [hci] at h
      simp only [Except.ok.injEq] at h
      obtain ⟨q1, q2, q3⟩ := confidenceInterval_isQuantile hci
      refine ⟨c.sorted.map Prod.fst, c.sorted.map Prod.snd, rates, ci.1.1, ci.1.2, ci.2, ⟨?_, ?_, ?_, ?_⟩, ?_,
        by rw [← h], by rw [← h], q1, q2, q3⟩
      · rw [hkeys]; exact sortIndex_strict hd
      · rw [hkeys]; exact (sortIndex_perm s).map _
      · simp
      · intro t v
        rw [← List.unzip_fst, ← List.unzip_snd, List.zip_unzip, hs, mem_renormalize, hrn]
        simp only [(sortIndex_perm s).mem_iff]
      · have hf := exceptMapM_ok hm
        rw [← hsm, List.forall₂_map_left_iff] at hf
        refine (List.forall₂_iff_get.mpr ⟨hf.length_eq, fun i h1 h2 => ?_⟩)
        have hi := (List.forall₂_iff_get.mp hf).2 i h1 h2
        have hmem : draws.get ⟨i, h1⟩ ∈ draws := List.get_mem _ _
        generalize draws.get ⟨i, h1⟩ = starts at hi hmem
        have hres := blockResample_of (rd := c.rd) (s := c.sorted) hb (by rw [hlen]; exact hn _ hmem)
        cases hcore : yoyCore inferFreq false none ((c.sorted.map Prod.fst).zip
            (List.zipWith (recombineAt true) (yoyTrend c.rd c.sorted)
              ((blockIndices (c.sorted.map Prod.snd).length block starts).map fun i =>
                ((List.zipWith (residualAt true) (c.sorted.map Prod.snd) (yoyTrend c.rd c.sorted))[i]?).join))) with
        | error e => rw [hcore] at hi; exact absurd hi (by simp [Except.map])
        | ok c' =>
          rw [hcore] at hi
          refine ⟨_, ⟨c'.rd, none, none, c'.table.filterMap fun x => x.yoy.map fun v => (x.dt, v), c'.renorm,
            usageOfPoints c'.table⟩, by rw [hrd, List.length_map]; exact hres, ?_, ?_⟩
          · unfold yoy
            rw [if_neg (by decide), hcore]
            simp only [Except.bind]
          · simpa [Except.map] using hi

example : (exampleYoY.map Prod.fst).Nodup ∧ (∀ starts ∈ [[0, 1, 2, 3, 4], [2, 3, 4, 0, 1]],
    exampleYoY.length ≤ starts.length * 1) ∧
    (yoy (fun _ => some dayNs) true 95 68 .circularBlock 1 (fun _ => [])
      [[0, 1, 2, 3, 4], [2, 3, 4, 0, 1]] exampleYoY).toOption.isSome = true :=
  ⟨by decide +kernel, by decide +kernel, by decide +kernel⟩

end Verif
