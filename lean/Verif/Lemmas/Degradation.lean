import Verif.Model.Degradation
import Verif.Spec.Degradation
import Verif.Lemmas.Stats
import Verif.Lemmas.Frame
import Verif.Lemmas.Calendar
import Verif.Lemmas.Filtering
import Verif.Lemmas.Tactics

/-! # Year-on-year: sorting, matching and decomposition of the result -/

namespace Verif
open Spec

section sort
variable {α : Type} (f : α → Int)

theorem keysort_perm (l : List α) : (l.insertionSort fun a b => f a ≤ f b).Perm l :=
  List.perm_insertionSort _ l

theorem keysort_pairwise (l : List α) :
    (l.insertionSort fun a b => f a ≤ f b).Pairwise fun a b => f a ≤ f b := by
  haveI : Std.Total (fun a b : α => f a ≤ f b) := ⟨fun a b => le_total _ _⟩
  haveI : IsTrans α (fun a b : α => f a ≤ f b) := ⟨fun _ _ _ h1 h2 => le_trans h1 h2⟩
  exact List.pairwise_insertionSort _ l

theorem keysort_sublist {l c : List α} (hc : c.Pairwise fun a b => f a ≤ f b) (h : c.Sublist l) :
    c.Sublist (l.insertionSort fun a b => f a ≤ f b) := by
  haveI : Std.Total (fun a b : α => f a ≤ f b) := ⟨fun a b => le_total _ _⟩
  haveI : IsTrans α (fun a b : α => f a ≤ f b) := ⟨fun _ _ _ h1 h2 => le_trans h1 h2⟩
  exact List.sublist_insertionSort hc h
end sort

theorem sortIndex_perm (s : Series) : (sortIndex s).Perm s := keysort_perm _ s

theorem sortIndex_strict {s : Series} (h : (s.map Prod.fst).Nodup) :
    StrictSorted ((sortIndex s).map Prod.fst) := by
  have h1 : (sortIndex s).Pairwise fun a b => a.1 ≤ b.1 := keysort_pairwise _ s
  have h2 : ((sortIndex s).map Prod.fst).Nodup := ((sortIndex_perm s).map _).nodup_iff.mpr h
  unfold StrictSorted
  rw [List.Nodup, List.pairwise_map] at h2
  rw [List.pairwise_map]
  exact (h1.and h2).imp fun h => lt_of_le_of_ne h.1 h.2

theorem strict_pairs {s : Series} (h : StrictSorted (s.map Prod.fst)) :
    s.Pairwise fun a b => a.1 < b.1 := List.pairwise_map.mp h

theorem pair_eq_of_key {s : Series} (h : (s.map Prod.fst).Nodup) {a b : Int × Cell} (ha : a ∈ s)
    (hb : b ∈ s) (hab : a.1 = b.1) : a = b :=
  List.inj_on_of_nodup_map h ha hb hab

theorem sortIndex_eq_of_perm {s s' : Series} (hp : s.Perm s') (h : (s.map Prod.fst).Nodup) :
    sortIndex s = sortIndex s' := by
  have h' : (s'.map Prod.fst).Nodup := (hp.map _).nodup_iff.mp h
  apply List.Perm.eq_of_pairwise (le := fun a b : Int × Cell => a.1 < b.1) _
    (strict_pairs (sortIndex_strict h)) (strict_pairs (sortIndex_strict h'))
  · exact ((sortIndex_perm s).trans hp).trans (sortIndex_perm s').symm
  · intro a b _ _ h1 h2; exact absurd (lt_trans h1 h2) (lt_irrefl _)

theorem pair_sublist {s : Series} (h : s.Pairwise fun a b => a.1 < b.1) {a b : Int × Cell}
    (ha : a ∈ s) (hb : b ∈ s) (hab : a.1 < b.1) : [a, b].Sublist s := by
  induction s with
  | nil => simp at ha
  | cons x l ih =>
    rw [List.pairwise_cons] at h
    rcases List.mem_cons.mp ha with rfl | ha'
    · rcases List.mem_cons.mp hb with rfl | hb'
      · omega
      · exact List.cons_sublist_cons.mpr (List.singleton_sublist.mpr hb')
    · rcases List.mem_cons.mp hb with rfl | hb'
      · have := h.1 a ha'; omega
      · exact (ih h.2 ha' hb').cons _

theorem asofYear_eq_some {s : Series} (hs : StrictSorted (s.map Prod.fst)) {t u : Int} {x : Cell} :
    asofYear s t = some (u, x) ↔ (u, x) ∈ s ∧ LatestAnniversary (s.map Prod.fst) t u := by
  -- the last admissible row
  have key : ∀ r, ((s.insertionSort fun a b => addYears 1 a.1 ≤ addYears 1 b.1).filter
      fun r => decide (addYears 1 r.1 ≤ t)).getLast? = some r →
      r ∈ s ∧ addYears 1 r.1 ≤ t ∧ ∀ w ∈ s, addYears 1 w.1 ≤ t →
        addYears 1 w.1 < addYears 1 r.1 ∨ (addYears 1 w.1 = addYears 1 r.1 ∧ w.1 ≤ r.1) := by
    intro r hr
    obtain ⟨ys, hys⟩ := List.getLast?_eq_some_iff.mp hr
    have hpw := (keysort_pairwise (fun a : Int × Cell => addYears 1 a.1) s).filter
      (fun r => decide (addYears 1 r.1 ≤ t))
    have hmem : ∀ w, w ∈ ys ++ [r] ↔ w ∈ s ∧ addYears 1 w.1 ≤ t := by
      intro w
      rw [← hys, List.mem_filter, (keysort_perm _ s).mem_iff]
      simp
    rw [hys] at hpw
    have hr1 := (hmem r).mp (by simp)
    refine ⟨hr1.1, hr1.2, fun w hw hwt => ?_⟩
    have hw' := (hmem w).mpr ⟨hw, hwt⟩
    rcases List.mem_append.mp hw' with h | h
    · have hle : addYears 1 w.1 ≤ addYears 1 r.1 :=
        (List.pairwise_append.mp hpw).2.2 w h r (by simp)
      rcases lt_or_eq_of_le hle with hlt | heq
      · exact Or.inl hlt
      · refine Or.inr ⟨heq, ?_⟩
        by_contra hcon
        have hlt : r.1 < w.1 := by omega
        have hsub := pair_sublist (strict_pairs hs) hr1.1 hw hlt
        have hsub2 := keysort_sublist (fun a : Int × Cell => addYears 1 a.1) (c := [r, w])
          (by simp [heq]) hsub
        have hsub3 := hsub2.filter (fun r => decide (addYears 1 r.1 ≤ t))
        rw [hys] at hsub3
        have hf : [r, w].filter (fun r => decide (addYears 1 r.1 ≤ t)) = [r, w] := by
          simp [hr1.2, hwt]
        rw [hf] at hsub3
        have hnd : (ys ++ [r]).Nodup := by
          rw [← hys]
          apply List.Nodup.filter
          rw [(keysort_perm _ s).nodup_iff]
          exact List.Nodup.of_map _ (StrictSorted.nodup hs)
        obtain ⟨l1, l2, h12, hl1, hl2⟩ := List.sublist_append_iff.mp hsub3
        cases l1 with
        | nil =>
          have := hl2.length_le
          rw [List.nil_append] at h12
          rw [← h12] at this
          simp at this
        | cons a l1 =>
          rw [List.cons_append, List.cons.injEq] at h12
          have : r ∈ ys := hl1.subset (by simp [h12.1])
          exact (List.disjoint_of_nodup_append hnd) this (by simp)
    · rw [List.mem_singleton] at h
      subst h
      exact Or.inr ⟨rfl, le_refl _⟩
  unfold asofYear
  constructor
  · intro h
    split at h
    · rename_i r hr
      split at h
      · rename_i hw
        rw [Option.some.injEq] at h
        subst h
        obtain ⟨h1, h2, h3⟩ := key _ hr
        refine ⟨h1, List.mem_map_of_mem h1, h2, by simp only at hw; omega, fun w hw' hwt => ?_⟩
        obtain ⟨w', hw1, rfl⟩ := List.mem_map.mp hw'
        exact h3 w' hw1 hwt
      · exact absurd h (by simp)
    · exact absurd h (by simp)
  · rintro ⟨h1, h2⟩
    cases hr : ((s.insertionSort fun a b => addYears 1 a.1 ≤ addYears 1 b.1).filter
      fun r => decide (addYears 1 r.1 ≤ t)).getLast? with
    | none =>
      rw [List.getLast?_eq_none_iff, List.filter_eq_nil_iff] at hr
      have := hr (u, x) ((keysort_perm _ s).mem_iff.mpr h1)
      simp [h2.notAfter] at this
    | some r =>
      obtain ⟨k1, k2, k3⟩ := key r hr
      have a1 := k3 (u, x) h1 h2.notAfter
      have a2 := h2.latest r.1 (List.mem_map_of_mem k1) k2
      have : r.1 = u := by
        simp only at a1
        rcases a1 with a | ⟨a, b⟩ <;> rcases a2 with c | ⟨c, d⟩ <;> omega
      have e : r = (u, x) := pair_eq_of_key (StrictSorted.nodup hs) k1 h1 this
      subst e
      have := h2.within
      simp only
      rw [if_pos (by omega)]

theorem asofYear_eq_none {s : Series} (hs : StrictSorted (s.map Prod.fst)) {t : Int} :
    asofYear s t = none ↔ ∀ u, ¬ LatestAnniversary (s.map Prod.fst) t u := by
  constructor
  · intro h u hu
    obtain ⟨r, hr, rfl⟩ := List.mem_map.mp hu.mem
    have := (asofYear_eq_some hs (x := r.2)).mpr ⟨hr, hu⟩
    rw [h] at this
    exact absurd this (by simp)
  · intro h
    cases hr : asofYear s t with
    | none => rfl
    | some r => exact absurd ((asofYear_eq_some hs (u := r.1) (x := r.2)).mp hr).2 (h r.1)

theorem renormalize_keys (s : Series) (c : Cell) :
    (renormalize s c).map Prod.fst = s.map Prod.fst := by
  simp [renormalize, Function.comp_def]

theorem mem_renormalize {s : Series} {c : Cell} {t : Int} {v : ℚ} :
    (t, some v) ∈ renormalize s c ↔
      ∃ e k, (t, some e) ∈ s ∧ c = some k ∧ k ≠ 0 ∧ v = e / k := by
  unfold renormalize
  simp only [List.mem_map, Prod.mk.injEq]
  constructor
  · rintro ⟨⟨u, x⟩, hm, rfl, hv⟩
    cases x with
    | none => simp [cellOp] at hv
    | some e =>
      cases c with
      | none => simp [cellOp] at hv
      | some k =>
        by_cases hk : k = 0
        · simp [hk, cellOp] at hv
        · rw [if_neg (by simpa using hk)] at hv
          simp only [cellOp, Option.some.injEq] at hv
          exact ⟨e, k, hm, rfl, hk, hv.symm⟩
  · rintro ⟨e, k, hm, rfl, hk, rfl⟩
    exact ⟨(t, some e), hm, rfl, by rw [if_neg (by simpa using hk)]; rfl⟩

/-- rows of the merged table -/
theorem mem_yoyTable {s : Series} (hs : StrictSorted (s.map Prod.fst)) {t : Int} {o : Option Int}
    {v : ℚ} :
    (⟨t, o, some v⟩ : YoYRow) ∈ yoyTable s ↔
      ∃ u a b, o = some u ∧ (t, some a) ∈ s ∧ (u, some b) ∈ s ∧
        LatestAnniversary (s.map Prod.fst) t u ∧
        v = 100 * (a - b) / (((t : ℚ) - u) / (365 * dayNs)) := by
  unfold yoyTable
  simp only [List.mem_map]
  constructor
  · rintro ⟨⟨t', x⟩, hm, h⟩
    cases ha : asofYear s t' with
    | none => simp [ha] at h
    | some r =>
      obtain ⟨u, y⟩ := r
      simp only [ha, YoYRow.mk.injEq] at h
      obtain ⟨rfl, rfl, h⟩ := h
      obtain ⟨h1, h2⟩ := (asofYear_eq_some hs).mp ha
      cases x with
      | none => simp [cellOp] at h
      | some a =>
        cases y with
        | none => simp [cellOp] at h
        | some b =>
          simp only [cellOp, Option.some.injEq] at h
          exact ⟨u, a, b, rfl, hm, h1, h2, h.symm⟩
  · rintro ⟨u, a, b, rfl, h1, h2, h3, rfl⟩
    refine ⟨(t, some a), h1, ?_⟩
    rw [(asofYear_eq_some hs).mpr ⟨h2, h3⟩]
    rfl

theorem yoyTable_dt (s : Series) : (yoyTable s).map YoYRow.dt = s.map Prod.fst := by
  unfold yoyTable
  rw [List.map_map]
  apply List.map_congr_left
  intro r _
  simp only [Function.comp_apply]
  split <;> rfl

/-- What a successful core computation contains. -/
theorem yoyCore_ok {inferFreq : List Int → Option Int} {recenter : Bool} {block : Option ℚ}
    {s : Series} {c : YoYCore} (h : yoyCore inferFreq recenter block s = .ok c) :
    c.renorm = yoyRenorm recenter (sortIndex s) ∧
    c.sorted = renormalize (sortIndex s) c.renorm ∧ c.table = yoyTable c.sorted ∧
    c.rates = valids (c.table.map YoYRow.yoy) ∧ median c.rates = some c.rd := by
  unfold yoyCore at h
  simp only at h
  split_ifs at h
  split at h
  · exact absurd h (by simp)
  · rename_i rd hrd
    rw [Except.ok.injEq] at h
    subst h
    exact ⟨rfl, rfl, rfl, rfl, hrd⟩

/-- What a successful call contains. -/
theorem yoy_ok {inferFreq : List Int → Option Int} {recenter : Bool} {exceed conf : ℚ}
    {method : Uncertainty} {block : Nat} {choose : List ℚ → List (List ℚ)} {draws : List (List Nat)}
    {s : Series} {r : YoYResult}
    (h : yoy inferFreq recenter exceed conf method block choose draws s = .ok r) :
    ∃ c, yoyCore inferFreq recenter (if method = .circularBlock then some (block : ℚ) else none) s
        = .ok c ∧ r.rd = c.rd ∧ r.renorm = c.renorm ∧ r.usage = usageOfPoints c.table ∧
      r.values = c.table.filterMap fun x => x.yoy.map fun v => (x.dt, v) := by
  unfold yoy at h
  cases hc : yoyCore inferFreq recenter (if method = .circularBlock then some (block : ℚ) else none) s with
  | error e => rw [hc] at h; exact absurd h (by simp [Except.bind])
  | ok c =>
    rw [hc] at h
    refine ⟨c, rfl, ?_⟩
    simp only [Except.bind] at h
    split at h
    · cases hci : confidenceInterval ((choose c.rates).filterMap median) exceed conf with
      | error e => rw [hci] at h; exact absurd h (by simp)
      | ok ci =>
        rw [hci] at h
        simp only [Except.ok.injEq] at h
        subst h; exact ⟨rfl, rfl, rfl, rfl⟩
    · split at h
      · exact absurd h (by simp)
      · split at h
        · exact absurd h (by simp)
        · split at h
          · exact absurd h (by simp)
          · simp only [Except.ok.injEq] at h
            subst h; exact ⟨rfl, rfl, rfl, rfl⟩
    · simp only [Except.ok.injEq] at h
      subst h; exact ⟨rfl, rfl, rfl, rfl⟩

theorem values_snd (tbl : List YoYRow) :
    (tbl.filterMap fun x => x.yoy.map fun v => (x.dt, v)).map Prod.snd
      = valids (tbl.map YoYRow.yoy) := by
  induction tbl with
  | nil => rfl
  | cons a l ih =>
    cases h : a.yoy <;> simp [valids, h] at ih ⊢ <;> exact ih

end Verif
