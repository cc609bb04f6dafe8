import Verif.Model.Availability
import Verif.Lemmas.Stats
import Verif.Props.AvailOutages

/-! C129: the order of the subsystem columns. -/

namespace Verif.Avail

/-- The columns of a row in another order: first the column `σ[0]`, then `σ[1]`, and so on. -/
def reorder {α : Type} (σ : List Nat) (d : α) (l : List α) : List α := σ.map fun j => l.getD j d

/-- The same plant with the subsystem columns in another order. -/
def Input.reorder (σ : List Nat) (i : Input) : Input :=
  { i with subs := i.subs.map (Avail.reorder σ none) }

/-- The same arguments, for the plant with reordered columns. -/
def Args.reorder (σ : List Nat) (a : Args) : Args :=
  { a with thresholds := a.thresholds.map (Avail.reorder σ none), sizes := a.sizes.map (Avail.reorder σ none) }

theorem reorder_perm {α : Type} {σ : List Nat} {l : List α} (d : α) (h : σ.Perm (List.range l.length)) :
    (reorder σ d l).Perm l := by
  have e : (List.range l.length).map (fun j : Nat => l.getD j d) = l := by
    apply List.ext_getElem?
    intro k
    simp only [List.getElem?_map, List.getElem?_range, List.getD_eq_getElem?_getD]
    by_cases hk : k < l.length
    · simp [hk]
    · simp [hk, List.getElem?_eq_none (not_lt.mp hk)]
  have := h.map fun j : Nat => l.getD j d
  rw [e] at this
  exact this

theorem reorder_length {α : Type} (σ : List Nat) (l : List α) (d : α) :
    (reorder σ d l).length = σ.length := by simp [reorder]

theorem reorder_map {α β : Type} {σ : List Nat} {l : List α} (d : α) (d' : β) (f : α → β)
    (h : ∀ j ∈ σ, j < l.length) : reorder σ d' (l.map f) = (reorder σ d l).map f := by
  unfold reorder
  rw [List.map_map]
  apply List.map_congr_left
  intro j hj
  simp [List.getD_eq_getElem?_getD, h j hj]

theorem reorder_zipWith {α β γ : Type} {σ : List Nat} {l : List α} {m : List β} (d : α) (d' : β) (d'' : γ)
    (f : α → β → γ) (h : ∀ j ∈ σ, j < l.length) (h' : ∀ j ∈ σ, j < m.length) :
    List.zipWith f (reorder σ d l) (reorder σ d' m) = reorder σ d'' (List.zipWith f l m) := by
  unfold reorder
  rw [List.zipWith_map, List.zipWith_self]
  apply List.map_congr_left
  intro j hj
  simp [List.getD_eq_getElem?_getD, h j hj, h' j hj]

/-- What is known of a reordering of rows of `n` columns. -/
structure IsOrder (σ : List Nat) (n : Nat) : Prop where
  perm : σ.Perm (List.range n)

theorem IsOrder.lt {σ : List Nat} {n : Nat} (h : IsOrder σ n) : ∀ j ∈ σ, j < n := by
  intro j hj
  exact List.mem_range.mp (h.perm.mem_iff.mp hj)

theorem IsOrder.length {σ : List Nat} {n : Nat} (h : IsOrder σ n) : σ.length = n := by
  simpa using h.perm.length_eq

variable {σ : List Nat} {n : Nat}

theorem IsOrder.perm' {α : Type} (h : IsOrder σ n) {l : List α} (hl : l.length = n) (d : α) :
    (reorder σ d l).Perm l := reorder_perm d (hl ▸ h.perm)

theorem IsOrder.zipWith {α β γ : Type} (h : IsOrder σ n) {l : List α} {m : List β} (d : α) (d' : β) (d'' : γ)
    (f : α → β → γ) (hl : l.length = n) (hm : m.length = n) :
    List.zipWith f (reorder σ d l) (reorder σ d' m) = reorder σ d'' (List.zipWith f l m) :=
  reorder_zipWith d d' d'' f (by rw [hl]; exact h.lt) (by rw [hm]; exact h.lt)

theorem IsOrder.map {α β : Type} (h : IsOrder σ n) {l : List α} (d : α) (d' : β) (f : α → β)
    (hl : l.length = n) : reorder σ d' (l.map f) = (reorder σ d l).map f :=
  reorder_map d d' f (by rw [hl]; exact h.lt)

theorem fillRow_length (row : List Cell) : (fillRow row).length = row.length := by simp [fillRow]

theorem onlineRow_length' {th : List Cell} {p : List ℚ} (ht : th.length = n) (hp : p.length = n) :
    (onlineRow th p).length = n := by simp [onlineRow, ht, hp]

theorem reportingRow_length' {th : List Cell} {p : List ℚ} (ht : th.length = n) (hp : p.length = n) :
    (reportingRow th p).length = n := by simp [reportingRow, onlineRow, ht, hp]

theorem fillRow_reorder (h : IsOrder σ n) {row : List Cell} (hr : row.length = n) :
    fillRow (reorder σ none row) = reorder σ 0 (fillRow row) := by
  unfold fillRow
  rw [h.map none 0 _ hr]

theorem onlineRow_reorder (h : IsOrder σ n) {th : List Cell} {p : List ℚ} (ht : th.length = n)
    (hp : p.length = n) :
    onlineRow (reorder σ none th) (reorder σ 0 p) = reorder σ false (onlineRow th p) :=
  h.zipWith _ _ _ _ ht hp

theorem reportingRow_reorder (h : IsOrder σ n) {th : List Cell} {p : List ℚ} (ht : th.length = n)
    (hp : p.length = n) :
    reportingRow (reorder σ none th) (reorder σ 0 p) = reorder σ none (reportingRow th p) := by
  unfold reportingRow
  rw [onlineRow_reorder h ht hp]
  exact h.zipWith _ _ _ _ (onlineRow_length' ht hp) hp

theorem valids_perm' {l m : List Cell} (h : l.Perm m) : (valids l).Perm (valids m) :=
  h.filterMap _

theorem mean_perm' {l m : List ℚ} (h : l.Perm m) : mean l = mean m := by
  unfold mean
  rw [h.sum_eq, h.length_eq]
  have : (l = [] ↔ m = []) := ⟨fun e => by subst e; exact h.nil_eq.symm, fun e => by subst e; exact h.eq_nil⟩
  by_cases hl : l = []
  · have hm := this.mp hl; subst hl; subst hm; rfl
  · have hm : m ≠ [] := fun e => hl (this.mpr e)
    cases l with
    | nil => exact absurd rfl hl
    | cons a l => cases m with
      | nil => exact absurd rfl hm
      | cons b m => simp

theorem fractions_reorder (h : IsOrder σ n) {sizes : List Cell} (hs : sizes.length = n) :
    fractions (reorder σ none sizes) = reorder σ none (fractions sizes) := by
  unfold fractions
  rw [h.map none none _ hs, (valids_perm' (h.perm' hs none)).sum_eq]

theorem virtualFull_reorder (h : IsOrder σ n) {sizes rep : List Cell} (hs : sizes.length = n)
    (hr : rep.length = n) :
    virtualFull (reorder σ none sizes) (reorder σ none rep) = virtualFull sizes rep := by
  unfold virtualFull
  rw [h.zipWith none none none _ hr hs, reorder_length, h.length, hr]
  rw [mean_perm' (valids_perm' (h.perm' (by simp [hs, hr]) none))]

theorem foldl_min_perm {l m : List ℚ} (h : l.Perm m) : ∀ a : ℚ, l.foldl min a = m.foldl min a := by
  intro a
  exact h.foldl_eq' (by intro x _ y _ z; simp only [min_assoc, min_comm x y]) a

theorem minCell_perm {l m : List Cell} (h : l.Perm m) : minCell l = minCell m := by
  have hv := valids_perm' h
  have key : ∀ l : List ℚ, (match l with | [] => none | a :: l => some (l.foldl min a) : Cell) = l.min? := by
    intro l
    cases l with
    | nil => rfl
    | cons a l => rfl
  have hl : minCell l = (valids l).min? := key _
  have hm : minCell m = (valids m).min? := key _
  rw [hl, hm]
  cases e1 : (valids l).min? with
  | none =>
    rw [List.min?_eq_none_iff] at e1
    rw [e1] at hv
    rw [hv.nil_eq.symm]; rfl
  | some x =>
    rw [List.min?_eq_some_iff] at e1
    symm
    rw [List.min?_eq_some_iff]
    exact ⟨hv.mem_iff.mp e1.1, fun b hb => e1.2 b (hv.mem_iff.mpr hb)⟩

theorem fractions_length (sizes : List Cell) : (fractions sizes).length = sizes.length := by
  simp [fractions]

theorem smallestDelta_reorder (h : IsOrder σ n) {th sizes : List Cell} {p : List ℚ} (ht : th.length = n)
    (hs : sizes.length = n) (hp : p.length = n) :
    smallestDelta (reorder σ none th) (reorder σ none sizes) (reorder σ 0 p) = smallestDelta th sizes p := by
  unfold smallestDelta
  rw [fractions_reorder h hs, h.zipWith none 0 false _ ht hp,
    h.zipWith false none none _ (by simp [ht, hp]) (by rw [fractions_length, hs])]
  rw [minCell_perm (h.perm' (by simp [ht, hp, fractions_length, hs]) none)]

theorem isDowntime_reorder (h : IsOrder σ n) {th sizes : List Cell} {p : List ℚ} (ht : th.length = n)
    (hs : sizes.length = n) (hp : p.length = n) (ps : Cell) :
    isDowntime (reorder σ none th) (reorder σ none sizes) (reorder σ 0 p) ps = isDowntime th sizes p ps := by
  unfold isDowntime
  simp only [reportingRow_reorder h ht hp, virtualFull_reorder h hs (reportingRow_length' ht hp),
    smallestDelta_reorder h ht hs hp, onlineRow_reorder h ht hp,
    (h.perm' (onlineRow_length' ht hp) false).all_eq]

theorem lowestPossible_reorder (h : IsOrder σ n) {th sizes : List Cell} {p : List ℚ} (ht : th.length = n)
    (hs : sizes.length = n) (hp : p.length = n) :
    lowestPossible (reorder σ none th) (reorder σ none sizes) (reorder σ 0 p) = lowestPossible th sizes p := by
  unfold lowestPossible
  rw [onlineRow_reorder h ht hp, fractions_reorder h hs,
    h.zipWith false none none _ (onlineRow_length' ht hp) (by rw [fractions_length, hs])]
  exact (valids_perm' (h.perm' (by simp [onlineRow_length' ht hp, fractions_length, hs]) none)).sum_eq

theorem lossRow_reorder (h : IsOrder σ n) {th sizes : List Cell} {row : List Cell} (ht : th.length = n)
    (hs : sizes.length = n) (hr : row.length = n) (limit ps0 : Cell) :
    lossRow (reorder σ none th) (reorder σ none sizes) limit ps0 (reorder σ none row) =
      lossRow th sizes limit ps0 row := by
  have hp : (fillRow row).length = n := by rw [fillRow_length, hr]
  unfold lossRow rawLoss
  rw [fillRow_reorder h hr]
  simp only [isDowntime_reorder h ht hs hp, reportingRow_reorder h ht hp,
    virtualFull_reorder h hs (reportingRow_length' ht hp), lowestPossible_reorder h ht hs hp]

theorem getD_reorder {α : Type} (h : IsOrder σ n) {l : List α} (d : α) (k : Nat) (hk : k < n) :
    (reorder σ d l).getD k d = l.getD (σ.getD k 0) d := by
  have : k < σ.length := by rw [h.length]; exact hk
  simp [reorder, List.getD_eq_getElem?_getD, this]

theorem defaultThresholds_reorder (h : IsOrder σ n) {rows : List (List Cell)}
    (hr : ∀ r ∈ rows, r.length = n) :
    defaultThresholds n (rows.map (reorder σ none)) = reorder σ none (defaultThresholds n rows) := by
  have e : defaultThresholds n (rows.map (reorder σ none)) =
      (List.range n).map fun k : Nat => (defaultThresholds n rows).getD (σ.getD k 0) none := by
    unfold defaultThresholds
    apply List.map_congr_left
    intro k hk
    have hk' := List.mem_range.mp hk
    have hσ : σ.getD k 0 < n := h.lt _ (by
      have : k < σ.length := by rw [h.length]; exact hk'
      simp [List.getD_eq_getElem?_getD, this])
    rw [List.getD_eq_getElem?_getD, List.getElem?_map, List.getElem?_range hσ]
    simp only [Option.map_some, Option.getD_some, List.map_map]
    congr 2
    apply List.map_congr_left
    intro r hm
    simp only [Function.comp_apply]
    rw [fillRow_reorder h (hr r hm), getD_reorder h _ _ hk']
  rw [e]
  unfold reorder
  rw [← h.length]
  apply List.ext_getElem?
  intro k
  by_cases hk : k < σ.length <;> simp [hk, List.getD_eq_getElem?_getD]

theorem estimateSizes_reorder (h : IsOrder σ n) {rows : List (List Cell)} {th : List Cell}
    (ht : th.length = n) (hr : ∀ r ∈ rows, r.length = n) :
    estimateSizes n (reorder σ none th) (rows.map (reorder σ none)) =
      reorder σ none (estimateSizes n th rows) := by
  have e : estimateSizes n (reorder σ none th) (rows.map (reorder σ none)) =
      (List.range n).map fun k : Nat => (estimateSizes n th rows).getD (σ.getD k 0) none := by
    unfold estimateSizes
    apply List.map_congr_left
    intro k hk
    have hk' := List.mem_range.mp hk
    have hσ : σ.getD k 0 < n := h.lt _ (by
      have : k < σ.length := by rw [h.length]; exact hk'
      simp [List.getD_eq_getElem?_getD, this])
    rw [List.getD_eq_getElem?_getD, List.getElem?_map, List.getElem?_range hσ]
    simp only [Option.map_some, Option.getD_some, List.map_map]
    congr 2
    apply List.map_congr_left
    intro r hm
    simp only [Function.comp_apply]
    have hf : (fillRow r).length = n := by rw [fillRow_length, hr r hm]
    have hrep := reportingRow_length' ht hf
    have hnorm : normalizedRow (reorder σ none (reportingRow th (fillRow r))) =
        reorder σ none (normalizedRow (reportingRow th (fillRow r))) := by
      unfold normalizedRow
      rw [h.map none none _ hrep, mean_perm' (valids_perm' (h.perm' hrep none))]
    rw [fillRow_reorder h (hr r hm), reportingRow_reorder h ht hf, hnorm, getD_reorder h _ _ hk']
  rw [e]
  unfold reorder
  rw [← h.length]
  apply List.ext_getElem?
  intro k
  by_cases hk : k < σ.length <;> simp [hk, List.getD_eq_getElem?_getD]

/-- Rows, thresholds and sizes have one entry per column. -/
structure Columns (a : Args) (i : Input) : Prop where
  rows : ∀ r ∈ i.subs, r.length = i.ncols
  some_row : i.subs.length = i.index.length
  thresholds : ∀ t, a.thresholds = some t → t.length = i.ncols
  sizes : ∀ t, a.sizes = some t → t.length = i.ncols

theorem thresholdsOf_length {a : Args} {i : Input} (hc : Columns a i) :
    (thresholdsOf a i).length = i.ncols := by
  unfold thresholdsOf
  cases e : a.thresholds with
  | none => simp [defaultThresholds]
  | some t => simpa using hc.thresholds t e

theorem sizesOf_length {a : Args} {i : Input} (hc : Columns a i) : (sizesOf a i).length = i.ncols := by
  unfold sizesOf
  cases e : a.sizes with
  | none => simp [estimateSizes]
  | some t => simpa using hc.sizes t e

theorem thresholdsOf_reorder {a : Args} {i : Input} (hc : Columns a i) (h : IsOrder σ i.ncols) :
    thresholdsOf (a.reorder σ) (i.reorder σ) = reorder σ none (thresholdsOf a i) := by
  unfold thresholdsOf Args.reorder Input.reorder
  cases e : a.thresholds with
  | none => simpa using defaultThresholds_reorder h hc.rows
  | some t => simp

theorem sizesOf_reorder {a : Args} {i : Input} (hc : Columns a i) (h : IsOrder σ i.ncols) :
    sizesOf (a.reorder σ) (i.reorder σ) = reorder σ none (sizesOf a i) := by
  unfold sizesOf
  rw [thresholdsOf_reorder hc h]
  cases e : a.sizes with
  | none =>
    simpa [Args.reorder, Input.reorder, e] using estimateSizes_reorder h (thresholdsOf_length hc) hc.rows
  | some t => simp [Args.reorder, e]

/-- **C129 (subsystem losses).** With the columns of the subsystems in another order — thresholds and
relative sizes, where given, reordered along — every row has the same loss, and each subsystem is
found online at the same times. -/
theorem C129_subsystem {a : Args} {i : Input} (hc : Columns a i) (h : σ.Perm (List.range i.ncols)) :
    (lossSubsystem (a.reorder σ) (i.reorder σ)).loss = (lossSubsystem a i).loss ∧
    (lossSubsystem (a.reorder σ) (i.reorder σ)).mask =
      (lossSubsystem a i).mask.map (reorder σ false) := by
  have ho : IsOrder σ i.ncols := ⟨h⟩
  unfold lossSubsystem
  simp only [thresholdsOf_reorder hc ho, sizesOf_reorder hc ho]
  refine ⟨?_, ?_⟩
  · apply List.map_congr_left
    intro k hk
    have hk' : k < i.subs.length := by rw [hc.some_row]; exact List.mem_range.mp hk
    have e : (i.reorder σ).subs.getD k [] = reorder σ none (i.subs.getD k []) := by
      simp [Input.reorder, List.getD_eq_getElem?_getD, hk']
    rw [e]
    refine lossRow_reorder ho (thresholdsOf_length hc) (sizesOf_length hc) ?_ _ _
    rw [List.getD_eq_getElem?_getD, List.getElem?_eq_getElem hk']
    exact hc.rows _ (List.getElem_mem hk')
  · simp only [Input.reorder, List.map_map]
    apply List.map_congr_left
    intro r hr
    simp only [Function.comp_apply]
    rw [fillRow_reorder ho (hc.rows r hr)]
    exact onlineRow_reorder ho (thresholdsOf_length hc) (by rw [fillRow_length, hc.rows r hr])

theorem maskedOffline_reorder {i : Input} (h : IsOrder σ n) {mask : List (List Bool)}
    (hm : ∀ m ∈ mask, m.length = n) :
    maskedOffline (i.reorder σ) (mask.map (reorder σ false)) = maskedOffline i mask := by
  unfold maskedOffline
  rw [List.zipWith_map_left]
  show List.zipWith _ mask i.expected = _
  apply List.ext_getElem?
  intro k
  simp only [List.getElem?_zipWith]
  cases e1 : mask[k]? with
  | none => simp
  | some m =>
    cases e2 : i.expected[k]? with
    | none => simp
    | some x =>
      have := (h.perm' (hm m (List.mem_of_getElem? e1)) false).any_eq (f := id)
      simp only [this]

/-- what an analysis reports: outages, corrected meter, losses and results -/
structure Report where
  dist : Option ErrorDist
  outages : Option (List Outage)
  sys : Option SystemLoss
  total : Option (List Cell)
  results : Option (List Row)
  deriving DecidableEq, Repr

/-- the report held by an object -/
def Obj.report (o : Obj) : Report := ⟨o.dist, o.outages, o.sys, o.total, o.results⟩

/-- **C129 (analysis).** The order in which the subsystems are given does not matter: the analysis
ends the same way, and everything it reports is the same. -/
theorem C129_analysis {a : Args} {i : Input} (hc : Columns a i) (h : σ.Perm (List.range i.ncols)) :
    (run (a.reorder σ) { input := i.reorder σ }).2 = (run a { input := i }).2 ∧
    (run (a.reorder σ) { input := i.reorder σ }).1.report = (run a { input := i }).1.report := by
  obtain ⟨hl, hm⟩ := C129_subsystem hc h
  have hmask : ∀ d, outageInfo (i.reorder σ) (lossSubsystem (a.reorder σ) (i.reorder σ)).mask d =
      outageInfo i (lossSubsystem a i).mask d := by
    intro d
    unfold outageInfo
    rw [hm, maskedOffline_reorder ⟨h⟩]
    · rfl
    · intro m hmm
      obtain ⟨r, hr, rfl⟩ := List.mem_map.mp hmm
      exact onlineRow_length' (thresholdsOf_length hc) (by rw [fillRow_length, hc.rows r hr])
  have hdist : ∀ l, errorDistributions (a.reorder σ) (i.reorder σ) l = errorDistributions a i l :=
    fun l => rfl
  have hsys : ∀ l, systemLoss (i.reorder σ) l = systemLoss i l := fun l => rfl
  have hcom : ∀ t c, combine (a.reorder σ) (i.reorder σ) t c = combine a i t c := fun t c => rfl
  unfold run
  simp only [hl, hdist, hmask, hsys, hcom]
  cases errorDistributions a i (lossSubsystem a i).loss with
  | error e => exact ⟨rfl, rfl⟩
  | ok d =>
    simp only
    cases outageInfo i (lossSubsystem a i).mask d with
    | error e => exact ⟨rfl, rfl⟩
    | ok outs =>
      simp only
      cases systemLoss i outs with
      | error e => exact ⟨rfl, rfl⟩
      | ok sl =>
        simp only
        cases combine a i (lossTotal (lossSubsystem a i).loss sl.loss) sl.corrected with
        | error e => exact ⟨rfl, rfl⟩
        | ok rows => exact ⟨rfl, rfl⟩

/-- the system of `exA` with a first inverter of a third of the size of the second, which fails at
the eighth row -/
def exTwo : Input :=
  { exA with
    subs := [[some 0, some 0], [some (1/2), some (3/2)], [some 1, some 3], [some 1, some 3], [none, none],
      [none, none], [none, none], [some 1, some 3], [some 0, some 3], [some 1, some 3], [some (1/2), some (3/2)],
      [some 0, some 0]]
    system := [some 0, some 2, some 4, some 4, some 0, some 0, some 0, some 4, some 3, some 4, some 2, some 0] }

example : Columns exA_args exTwo := by
  refine ⟨by decide +kernel, by decide +kernel, ?_, ?_⟩ <;> intro t h <;> simp [exA_args] at h

example : [1, 0].Perm (List.range exTwo.ncols) := by decide +kernel

/-- Loss of the eighth row and outage in both orders. -/
example : (lossSubsystem exA_args exTwo).loss.getD 8 0 = 1 ∧
    (lossSubsystem (exA_args.reorder [1, 0]) (exTwo.reorder [1, 0])).loss.getD 8 0 = 1 ∧
    (exTwo.reorder [1, 0]).subs.getD 8 [] = [some 3, some 0] ∧
    (run (exA_args.reorder [1, 0]) { input := exTwo.reorder [1, 0] }).1.outages.map (·.map fun o => (o.first, o.last)) =
      some [(4, 6)] := by
  decide +kernel

end Verif.Avail
