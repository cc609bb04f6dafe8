import Verif.Lemmas.EnergyMove
import Verif.Props.AvailColumns

/-! C130: moving a record in time. -/

namespace Verif

open Move

/-- **C130 (interpolation).** Moving the record and the target times by the same amount moves the
interpolated series by that amount and leaves its values and gaps alone. -/
theorem C130_interpolate (k : Int) (ts : Series) (tzS tzT : Bool) (target : List Int) (maxTd : Option ℚ) :
    interpolate (ts.map fun r => (r.1 + k, r.2)) tzS tzT (target.map (· + k)) maxTd =
      (interpolate ts tzS tzT target maxTd).map fun out => out.map fun r => (r.1 + k, r.2) := by
  unfold interpolate
  cases h : xor (!tzS) (!tzT) with
  | true => rfl
  | false => exact interpolateSeries_move k ts target maxTd

/-- **C130 (energy).** Moving a record of power by any amount moves the energies by that amount and
changes none of them. -/
theorem C130_energy (k : Int) (power : Series) (targetFreq : Option Int) (maxTd : Option ℚ)
    (ty : PowerType) (indexFreq : Option Int) :
    energyFromPower (power.map fun r => (r.1 + k, r.2)) targetFreq maxTd ty indexFreq =
      (energyFromPower power targetFreq maxTd ty indexFreq).map fun out =>
        out.map fun r => (r.1 + k, r.2) :=
  energyFromPower_move k power targetFreq maxTd ty indexFreq

example : energyFromPower [(0 + 5, some 2), (3600000000000 + 5, some 4), (7200000000000 + 5, none),
      (10800000000000 + 5, some 6)] none none .rightLabeled none =
    .ok [(3600000000000 + 5, some 4), (7200000000000 + 5, none), (10800000000000 + 5, none)] ∧
    energyFromPower [(0, some 2), (3600000000000, some 4), (7200000000000, none),
      (10800000000000, some 6)] none none .rightLabeled none =
    .ok [(3600000000000, some 4), (7200000000000, none), (10800000000000, none)] := by decide +kernel

namespace Avail

/-- the same record, moved in time -/
def Input.moved (k : Int) (i : Input) : Input := { i with index := i.index.map (· + k) }

theorem zip_moved (k : Int) (idx : List Int) (v : List Cell) :
    (idx.map (· + k)).zip v = rows k (idx.zip v) := by
  unfold rows
  rw [List.zip_map_left]
  rfl

theorem energyOn_moved (k : Int) (i : Input) (v : List Cell) : energyOn (i.moved k) v = energyOn i v := by
  unfold energyOn Input.moved
  simp only [zip_moved, energyFromPower_move]
  cases energyFromPower (i.index.zip v) none none .rightLabeled i.freq with
  | error e => rfl
  | ok e =>
    simp only [Except.map, List.map_map]
    congr 1
    apply List.map_congr_left
    intro t _
    simp only [Function.comp_apply, lookupK_rows]

theorem errorDistributions_moved (k : Int) (a : Args) (i : Input) (l : List ℚ) :
    errorDistributions a (i.moved k) l = errorDistributions a i l := by
  unfold errorDistributions
  simp only [energyOn_moved]
  rfl

theorem slice_rows (k : Int) (l : List (Int × Cell)) (s e : Nat) :
    slice (rows k l) s e = rows k (slice l s e) := by
  simp [slice, rows, List.map_take, List.map_drop]

theorem cumsumK_rows (k : Int) (a : ℚ) (l : List (Int × Cell)) :
    cumsumK a (rows k l) = rows k (cumsumK a l) := by
  induction l generalizing a with
  | nil => rfl
  | cons r l ih =>
    obtain ⟨t, _ | x⟩ := r
    · simp only [rows_cons, cumsumK, ih]
    · simp only [rows_cons, cumsumK, ih]

theorem fillOutage_moved (k : Int) (i : Input) (acc : SystemLoss) (o : Outage)
    (h : acc.corrected.length ≤ i.index.length) :
    fillOutage (i.moved k) acc o = fillOutage i acc o := by
  unfold fillOutage
  have hz : slice ((i.moved k).index.zip (i.moved k).expected) o.first o.last =
      rows k (slice (i.index.zip i.expected) o.first o.last) := by
    show slice ((i.index.map (· + k)).zip i.expected) o.first o.last = _
    rw [zip_moved, slice_rows]
  have hf : (i.moved k).freq = i.freq := rfl
  simp only [hz, hf, energyFromPower_move]
  cases energyFromPower (slice (i.index.zip i.expected) o.first o.last) none none .rightLabeled i.freq with
  | error e => rfl
  | ok se =>
    simp only [Except.map, rows_snd, cumsumK_rows]
    congr 2
    apply List.map_congr_left
    intro x hx
    have hx2 : x.2 < acc.corrected.length := by
      have := List.mem_zipIdx hx
      omega
    have hg : (i.moved k).index.getD x.2 0 = i.index.getD x.2 0 + k := by
      have : x.2 < i.index.length := by omega
      simp [Input.moved, List.getD_eq_getElem?_getD, this]
    rw [hg, lookupK_rows]

theorem fillOutage_corrected_length {i : Input} {acc out : SystemLoss} {o : Outage}
    (h : fillOutage i acc o = .ok out) : out.corrected.length = acc.corrected.length := by
  unfold fillOutage at h
  simp only at h
  cases he : energyFromPower (slice (i.index.zip i.expected) o.first o.last) none none .rightLabeled i.freq with
  | error e => rw [he] at h; cases h
  | ok se =>
    rw [he] at h
    simp only [Except.map, Except.ok.injEq] at h
    rw [← h]
    simp

theorem fold_moved (k : Int) (i : Input) (outs : List Outage) (acc : SystemLoss)
    (h : acc.corrected.length ≤ i.index.length) :
    outs.foldlM (fillOutage (i.moved k)) acc = outs.foldlM (fillOutage i) acc := by
  induction outs generalizing acc with
  | nil => rfl
  | cons o outs ih =>
    simp only [List.foldlM_cons, fillOutage_moved k i acc o h]
    cases he : fillOutage i acc o with
    | error e => rfl
    | ok acc' =>
      exact ih acc' (by rw [fillOutage_corrected_length he]; exact h)

theorem systemLoss_moved (k : Int) (i : Input) (outs : List Outage) (h : i.cum.length ≤ i.index.length) :
    systemLoss (i.moved k) outs = systemLoss i outs := by
  unfold systemLoss
  have : (⟨(i.moved k).index.map fun _ => some 0, (i.moved k).cum⟩ : SystemLoss) =
      ⟨i.index.map fun _ => some 0, i.cum⟩ := by
    simp [Input.moved, Function.comp_def]
  rw [this]
  exact fold_moved k i outs _ h

/-- the label of every row moved -/
def moveLabels (d : Int) (l : List Row) : List Row := l.map fun r => { r with label := r.label + d }

theorem filter_bin (k d : Int) (bin bin' : Int → Int) (hb : ∀ t, bin' (t + k) = bin t + d) (p : Int)
    (l : List (Int × Cell)) :
    (rows k l).filter (fun r => decide (bin' r.1 = p + d)) = rows k (l.filter fun r => decide (bin r.1 = p)) :=
  filter_rows k l _ _ (fun r => by simp [hb])

theorem rollup_moved (k d : Int) (bin bin' : Int → Int) (hb : ∀ t, bin' (t + k) = bin t + d)
    (cum energy : List (Int × Cell)) :
    rollup bin' (rows k cum) (rows k energy) = moveLabels d (rollup bin cum energy) := by
  unfold rollup moveLabels
  have hl : ((rows k cum).map Prod.fst ++ (rows k energy).map Prod.fst).map bin' =
      times d ((cum.map Prod.fst ++ energy.map Prod.fst).map bin) := by
    rw [rows_fst, rows_fst, ← times_append]
    unfold times
    rw [List.map_map, List.map_map]
    apply List.map_congr_left
    intro t _
    exact hb t
  rw [hl, dedup_times, insertionSort_times]
  conv_lhs => unfold times
  rw [List.map_map, List.map_map]
  apply List.map_congr_left
  intro p _
  have hne : ∀ l : List (Int × Cell), rows k l = [] ↔ l = [] := by intro l; simp [rows]
  simp only [Function.comp_apply, firstIn, lastIn, filter_bin k d bin bin' hb, rows_snd, hne]

/-- **C130 (availability).** Moving the whole record by any amount, with periods moved along, changes
nothing an availability analysis reports but the labels of the periods: thresholds, losses, outages,
their classification and all energies are the same. -/
theorem C130_availability (k d : Int) {a : Args} {i : Input} (hcum : i.cum.length ≤ i.index.length)
    {bin' : Option (Int → Int)}
    (hb : match a.bin, bin' with
      | none, none => True
      | some b, some b' => ∀ t, b' (t + k) = b t + d
      | _, _ => False) :
    (run { a with bin := bin' } { input := i.moved k }).2 = (run a { input := i }).2 ∧
    (run { a with bin := bin' } { input := i.moved k }).1.sub = (run a { input := i }).1.sub ∧
    (run { a with bin := bin' } { input := i.moved k }).1.report =
      { (run a { input := i }).1.report with
        results := (run a { input := i }).1.report.results.map (moveLabels d) } := by
  have hsub : lossSubsystem { a with bin := bin' } (i.moved k) = lossSubsystem a i := by
    unfold lossSubsystem
    simp only [Input.moved, List.length_map]
    rfl
  have hdist : ∀ l, errorDistributions { a with bin := bin' } (i.moved k) l = errorDistributions a i l := by
    intro l
    exact errorDistributions_moved k a i l
  have hout : ∀ m d, outageInfo (i.moved k) m d = outageInfo i m d := fun m d => rfl
  have hsys := fun outs => systemLoss_moved k i outs hcum
  have hcom : ∀ t c, combine { a with bin := bin' } (i.moved k) t c =
      (combine a i t c).map (moveLabels d) := by
    intro t c
    unfold combine
    cases h1 : a.bin with
    | none =>
      cases h2 : bin' with
      | none => rfl
      | some b' => rw [h1, h2] at hb; exact hb.elim
    | some b =>
      cases h2 : bin' with
      | none => rw [h1, h2] at hb; exact hb.elim
      | some b' =>
        rw [h1, h2] at hb
        simp only at hb
        have hf : (i.moved k).freq = i.freq := rfl
        have hi : (i.moved k).index = i.index.map (· + k) := rfl
        simp only [hf, hi, zip_moved, energyFromPower_move]
        cases energyFromPower (i.index.zip t) none none .rightLabeled i.freq with
        | error e => rfl
        | ok e =>
          simp only [Except.map]
          rw [rollup_moved k d b b' hb]
  unfold run
  simp only [hsub, hdist, hout, hsys, hcom]
  cases errorDistributions a i (lossSubsystem a i).loss with
  | error e => exact ⟨rfl, rfl, rfl⟩
  | ok dd =>
    simp only
    cases outageInfo i (lossSubsystem a i).mask dd with
    | error e => exact ⟨rfl, rfl, rfl⟩
    | ok outs =>
      simp only
      cases systemLoss i outs with
      | error e => exact ⟨rfl, rfl, rfl⟩
      | ok sl =>
        simp only
        cases combine a i (lossTotal (lossSubsystem a i).loss sl.loss) sl.corrected with
        | error e => exact ⟨rfl, rfl, rfl⟩
        | ok rows => exact ⟨rfl, rfl, rfl⟩

/-- The example moved by one period of six hours. -/
example : (∀ t : Int, (t + 21600000000000) / 21600000000000 = t / 21600000000000 + 1) ∧
    exA.cum.length ≤ exA.index.length ∧
    (run exA_args { input := exA.moved 21600000000000 }).1.results.map (·.map fun r => (r.label, r.lost, r.actual)) =
      some [(1, some 12, some 10), (2, some 6, some 14)] ∧
    (run exA_args { input := exA }).1.results.map (·.map fun r => (r.label, r.lost, r.actual)) =
      some [(0, some 12, some 10), (1, some 6, some 14)] := by
  refine ⟨fun t => by omega, by decide +kernel, ?_, ?_⟩ <;> decide +kernel

end Avail

end Verif
