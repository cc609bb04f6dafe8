import Verif.Lemmas.SrrMonte
import Mathlib.Data.List.Count
import Mathlib.Algebra.BigOperators.Group.List.Basic

/-! # Lemmas about the levels of invalid intervals in the SRR Monte Carlo step -/

namespace Verif

theorem groupsFrom_length (g : Nat) (tab : List Interval) : (groupsFrom g tab).length = tab.length := by
  induction tab generalizing g with
  | nil => rfl
  | cons i l ih => simp [groupsFrom, ih]

theorem groupsFrom_getElem (g : Nat) (tab : List Interval) {k : Nat} (hk : k < tab.length) :
    (groupsFrom g tab)[k]'(by rw [groupsFrom_length]; exact hk) =
      g + (tab.take (k + 1)).countP Interval.valid := by
  induction tab generalizing g k with
  | nil => simp at hk
  | cons i l ih =>
    cases k with
    | zero => simp only [groupsFrom, List.getElem_cons_zero, zero_add, List.take_succ_cons,
        List.take_zero, List.countP_cons, List.countP_nil]; split_ifs <;> rfl
    | succ k =>
      simp only [groupsFrom, List.getElem_cons_succ]
      rw [ih _ (by simpa using hk)]
      simp only [List.take_succ_cons, List.countP_cons]
      split_ifs <;> omega

theorem ffillFrom_length {α : Type} (p : Option α) (l : List (Option α)) : (ffillFrom p l).length = l.length := by
  induction l generalizing p with
  | nil => rfl
  | cons c l ih => cases c <;> simp [ffillFrom, ih]

theorem bfill_length {α : Type} (l : List (Option α)) : (bfill l).length = l.length := by
  induction l with
  | nil => rfl
  | cons c l ih => cases c <;> simp [bfill, ih]

/-- forward fill at `k`: the last present value up to `k` -/
theorem ffillFrom_getElem {α : Type} {p : Option α} {l : List (Option α)} {j k : Nat} (hjk : j ≤ k) (hk : k < l.length)
    {x : α} (hj : l[j] = some x) (hb : ∀ i (hi : i < l.length), j < i → i ≤ k → l[i] = none) :
    (ffillFrom p l)[k]'(by rw [ffillFrom_length]; exact hk) = some x := by
  induction l generalizing p j k with
  | nil => simp at hk
  | cons c l ih =>
    cases j with
    | zero =>
      simp only [List.getElem_cons_zero] at hj
      subst hj
      have : ∀ (k : Nat) (hk : k < l.length), (∀ i (hi : i < l.length), i ≤ k → l[i] = none) →
          (ffillFrom (some x) l)[k]'(by rw [ffillFrom_length]; exact hk) = some x := by
        clear ih hb hk hjk
        intro k
        induction l generalizing k with
        | nil => intro hk; simp at hk
        | cons c l ih =>
          intro hk hn
          have hc : c = none := hn 0 (by simp) (by omega)
          subst hc
          cases k with
          | zero => rfl
          | succ k =>
            simp only [ffillFrom, List.getElem_cons_succ]
            exact ih k (by simpa using hk) fun i hi hik => 
              hn (i + 1) (Nat.succ_lt_succ hi) (by omega)
      cases k with
      | zero => rfl
      | succ k =>
        simp only [ffillFrom, List.getElem_cons_succ]
        exact this k (by simpa using hk) fun i hi hik => 
              hb (i + 1) (Nat.succ_lt_succ hi) (by omega) (by omega)
    | succ j =>
      obtain ⟨k, rfl⟩ : ∃ m, k = m + 1 := ⟨k - 1, by omega⟩
      have hk' : k < l.length := by simpa using hk
      have hj' : l[j]'(by omega) = some x := by simpa using hj
      have hb' : ∀ i (hi : i < l.length), j < i → i ≤ k → l[i] = none := fun i hi h1 h2 => 
              hb (i + 1) (Nat.succ_lt_succ hi) (by omega) (by omega)
      cases c with
      | none => simp only [ffillFrom, List.getElem_cons_succ]; exact ih (by omega) hk' hj' hb'
      | some a => simp only [ffillFrom, List.getElem_cons_succ]; exact ih (by omega) hk' hj' hb'

theorem ffillFrom_getElem_none {α : Type} {p : Option α} {l : List (Option α)} {k : Nat} (hk : k < l.length)
    (hb : ∀ i (hi : i < l.length), i ≤ k → l[i] = none) :
    (ffillFrom p l)[k]'(by rw [ffillFrom_length]; exact hk) = p := by
  induction l generalizing p k with
  | nil => simp at hk
  | cons c l ih =>
    have hc : c = none := hb 0 (by simp) (by omega)
    subst hc
    cases k with
    | zero => rfl
    | succ k =>
      simp only [ffillFrom, List.getElem_cons_succ]
      exact ih (by simpa using hk) fun i hi hik => 
              hb (i + 1) (Nat.succ_lt_succ hi) (by omega)

theorem bfill_step {α : Type} {l : List (Option α)} : (bfill (none :: l)).head?.join = (bfill l).head?.join := by
  simp [bfill]

/-- backward fill at `k`: the first present value from `k` on -/
theorem bfill_getElem {α : Type} {l : List (Option α)} {j k : Nat} (hkj : k ≤ j) (hj : j < l.length) {x : α}
    (hx : l[j] = some x) (hb : ∀ i (hi : i < l.length), k ≤ i → i < j → l[i] = none) :
    (bfill l)[k]'(by rw [bfill_length]; omega) = some x := by
  induction l generalizing j k with
  | nil => simp at hj
  | cons c l ih =>
    cases k with
    | succ k =>
      obtain ⟨j, rfl⟩ : ∃ m, j = m + 1 := ⟨j - 1, by omega⟩
      have := ih (j := j) (k := k) (by omega) (by simpa using hj) (by simpa using hx) fun i hi h1 h2 => 
              hb (i + 1) (Nat.succ_lt_succ hi) (by omega) (by omega)
      cases c with
      | none => simpa only [bfill, List.getElem_cons_succ] using this
      | some a => simpa only [bfill, List.getElem_cons_succ] using this
    | zero =>
      cases j with
      | zero =>
        simp only [List.getElem_cons_zero] at hx
        subst hx
        rfl
      | succ j =>
        have hc : c = none := hb 0 (by simp) (by omega) (by omega)
        subst hc
        have hj' : j < l.length := by simpa using hj
        have := ih (k := 0) (by omega) hj' (by simpa using hx) fun i hi h1 h2 => 
              hb (i + 1) (Nat.succ_lt_succ hi) (by omega) (by omega)
        simp only [bfill, List.getElem_cons_zero]
        rw [List.head?_eq_getElem?, List.getElem?_eq_getElem (by rw [bfill_length]; omega), this]
        rfl

theorem bfill_getElem_none {α : Type} {l : List (Option α)} {k : Nat} (hk : k < l.length)
    (hb : ∀ i (hi : i < l.length), k ≤ i → l[i] = none) :
    (bfill l)[k]'(by rw [bfill_length]; omega) = none := by
  induction l generalizing k with
  | nil => simp at hk
  | cons c l ih =>
    cases k with
    | succ k =>
      have := ih (k := k) (by simpa using hk) fun i hi h1 => 
              hb (i + 1) (Nat.succ_lt_succ hi) (by omega)
      cases c with
      | none => simpa only [bfill, List.getElem_cons_succ] using this
      | some a => simpa only [bfill, List.getElem_cons_succ] using this
    | zero =>
      have hc : c = none := hb 0 (by simp) (by omega)
      subst hc
      simp only [bfill, List.getElem_cons_zero]
      cases l with
      | nil => rfl
      | cons d l =>
        have := ih (k := 0) (by simp) fun i hi h1 => 
              hb (i + 1) (Nat.succ_lt_succ hi) (by omega)
        rw [List.head?_eq_getElem?, List.getElem?_eq_getElem (by rw [bfill_length]; simp), this]
        rfl

/-- the number of levels drawn is the number of invalid rows -/
theorem replaceLevels_length {ord : List Nat → List Nat} (hord : ∀ l, (ord l).Perm l) (u : Nat → ℚ)
    (inv : List InvalidRow) : (replaceLevels ord u inv).length = inv.length := by
  unfold replaceLevels
  rw [List.length_flatten, List.map_map]
  have h1 : ∀ (x : Nat × Nat), (List.length ∘ fun x : Nat × Nat =>
      match inv.filter fun r => decide (r.group = x.1) with
      | [] => ([] : List ℚ)
      | r :: _ => List.replicate (inv.filter fun r => decide (r.group = x.1)).length
          (uniform r.prevEnd r.nextStart (u x.2))) x = (inv.map InvalidRow.group).count x.1 := by
    intro x
    simp only [Function.comp]
    have hc : (inv.map InvalidRow.group).count x.1 = (inv.filter fun r => decide (r.group = x.1)).length := by
      rw [List.count, List.countP_map, List.countP_eq_length_filter]
      congr 1
    rw [hc]
    cases hf : (inv.filter fun r => decide (r.group = x.1)) with
    | nil => rfl
    | cons r l => simp
  have h2 : (((ord (inv.map InvalidRow.group).dedup).zipIdx).map fun x => (inv.map InvalidRow.group).count x.1).sum
      = inv.length := by
    have : ((ord (inv.map InvalidRow.group).dedup).zipIdx).map (fun x => (inv.map InvalidRow.group).count x.1)
        = (ord (inv.map InvalidRow.group).dedup).map fun g => (inv.map InvalidRow.group).count g := by
      rw [show (fun x : Nat × Nat => (inv.map InvalidRow.group).count x.1) =
        (fun g => (inv.map InvalidRow.group).count g) ∘ Prod.fst from rfl, ← List.map_map]
      congr 1
      exact List.zipIdx_map_fst _ _
    rw [this, ((hord _).map _).sum_eq, List.sum_map_count_dedup_eq_length, List.length_map]
  rw [← h2]
  congr 1
  apply List.map_congr_left
  intro x _
  exact h1 x

theorem fillInvalid_some {l : List Cell} {xs : List ℚ} (h : (l.countP fun c => c.isNone) ≤ xs.length) :
    ∀ c ∈ fillInvalid l xs, c ≠ none := by
  induction l generalizing xs with
  | nil => intro c hc; simp [fillInvalid] at hc
  | cons a l ih =>
    cases a with
    | some a =>
      simp only [List.countP_cons, Option.isNone_some] at h
      intro c hc
      rw [fillInvalid, List.mem_cons] at hc
      rcases hc with rfl | hc
      · simp
      · exact ih (by simpa using h) c hc
    | none =>
      cases xs with
      | nil => simp at h
      | cons x xs =>
        intro c hc
        rw [fillInvalid, List.mem_cons] at hc
        rcases hc with rfl | hc
        · simp
        · exact ih (by simpa using h) c hc

theorem invalidRows_length {tab : List Interval} {se : List (Cell × Cell)} (hl : se.length = tab.length) :
    (invalidRows tab se).length = tab.countP fun i => !i.valid := by
  unfold invalidRows
  rw [List.length_map, ← List.countP_eq_length_filter]
  have hm : (((tab.zip (groupsFrom 0 tab)).zip
    ((ffill (se.map Prod.snd)).zip (bfill (se.map Prod.fst)))).map fun x => x.1.1) = tab := by
    rw [show (fun x : (Interval × Nat) × (Cell × Cell) => x.1.1) = Prod.fst ∘ Prod.fst from rfl,
      ← List.map_map, List.map_fst_zip, List.map_fst_zip]
    · rw [groupsFrom_length]
    · simp [groupsFrom_length, ffill, ffillFrom_length, bfill_length, hl]
  conv_rhs => rw [← hm]
  rw [List.countP_map]
  rfl

/-- every interval gets a start loss -/
theorem startLosses_some {ord : List Nat → List Nat} (hord : ∀ l, (ord l).Perm l) {m : SrrMethod}
    {dr : SrrDraw} {tab : List Interval} {starts : List Cell} (h : startLosses ord m dr tab = .ok starts) :
    starts.length = tab.length ∧ ∀ c ∈ starts, c ≠ none := by
  have main : ∀ se, se = simulate m dr.recovery 1 0 (tab.zip (drawSlopes dr.slope tab)) →
      (fillInvalid (se.map Prod.fst) (replaceLevels ord dr.level (invalidRows tab se))).length = tab.length ∧
      ∀ c ∈ fillInvalid (se.map Prod.fst) (replaceLevels ord dr.level (invalidRows tab se)), c ≠ none := by
    intro se hse
    have hl : se.length = tab.length := by rw [hse, simulate_length]; simp [drawSlopes_length]
    refine ⟨by rw [fillInvalid_length, List.length_map, hl], fillInvalid_some ?_⟩
    rw [replaceLevels_length hord, invalidRows_length hl]
    have h1 := (simulate_isSome m dr.recovery 1 0 (tab.zip (drawSlopes dr.slope tab))).1
    rw [← hse] at h1
    have h2 : (tab.zip (drawSlopes dr.slope tab)).map (fun x => x.1.valid) = tab.map Interval.valid := by
      rw [show (fun x : Interval × ℚ => x.1.valid) = Interval.valid ∘ Prod.fst from rfl, ← List.map_map,
        List.map_fst_zip (by rw [drawSlopes_length])]
    rw [h2] at h1
    have e1 : (se.map Prod.fst).countP (fun c => c.isNone) = (se.map fun y => y.1.isSome).countP (!·) := by
      rw [List.countP_map, List.countP_map]
      apply List.countP_congr
      intro x _
      simp only [Function.comp]
      cases x.1 <;> simp
    rw [e1, h1, List.countP_map]
    exact le_of_eq (List.countP_congr fun x _ => by simp [Function.comp])
  unfold startLosses at h
  cases m with
  | other => simp at h
  | perfectClean =>
    simp only [Except.ok.injEq] at h
    subst h
    refine ⟨by simp, fun c hc => ?_⟩
    obtain ⟨i, -, rfl⟩ := List.mem_map.mp hc
    simp
  | halfNorm => simp only [Except.ok.injEq] at h; subst h; exact main _ rfl
  | randomClean => simp only [Except.ok.injEq] at h; subst h; exact main _ rfl

end Verif

namespace Verif

theorem ffillFrom_step {p : Cell} {l : List Cell} {k : Nat} (hk : k + 1 < l.length) (hn : l[k + 1] = none) :
    (ffillFrom p l)[k + 1]'(by rw [ffillFrom_length]; exact hk) =
      (ffillFrom p l)[k]'(by rw [ffillFrom_length]; omega) := by
  induction l generalizing p k with
  | nil => simp at hk
  | cons c l ih =>
    cases k with
    | zero =>
      cases l with
      | nil => simp at hk
      | cons d l =>
        have hd : d = none := hn
        subst hd
        cases c <;> rfl
    | succ k =>
      have h := fun p => ih (p := p) (k := k) (by simpa using hk) hn
      cases c with
      | none => exact h _
      | some a => exact h _

theorem bfill_step' {l : List Cell} {k : Nat} (hk : k + 1 < l.length) (hn : l[k] = none) :
    (bfill l)[k]'(by rw [bfill_length]; omega) = (bfill l)[k + 1]'(by rw [bfill_length]; exact hk) := by
  induction l generalizing k with
  | nil => simp at hk
  | cons c l ih =>
    cases k with
    | zero =>
      have hc : c = none := hn
      subst hc
      have h0 : 0 < (bfill l).length := by rw [bfill_length]; simpa using hk
      show (bfill l).head?.join = (bfill l)[0]
      rw [List.head?_eq_getElem?, List.getElem?_eq_getElem h0]
      rfl
    | succ k =>
      have h := ih (k := k) (by simpa using hk) hn
      cases c with
      | none => exact h
      | some a => exact h

/-- repeating each value as often as it occurs restores a sorted list -/
theorem flatMap_replicate_sorted {ds gs : List Nat} (hd : ds.Pairwise (· < ·)) (hg : gs.Pairwise (· ≤ ·))
    (h : ∀ g ∈ gs, g ∈ ds) : ds.flatMap (fun g => List.replicate (gs.count g) g) = gs := by
  induction ds generalizing gs with
  | nil =>
    cases gs with
    | nil => rfl
    | cons g l => simpa using h g (by simp)
  | cons d ds ih =>
    have hsplit : ∀ gs : List Nat, gs.Pairwise (· ≤ ·) → (∀ g ∈ gs, d ≤ g) →
        gs = List.replicate (gs.count d) d ++ gs.filter (fun g => decide (g ≠ d)) := by
      intro gs
      induction gs with
      | nil => intros; rfl
      | cons g l ih2 =>
        intro hs hm
        rw [List.pairwise_cons] at hs
        by_cases hgd : g = d
        · subst hgd
          conv_lhs => rw [ih2 hs.2 fun x hx => hm x (by simp [hx])]
          simp [List.replicate_succ]
        · have hlt : d < g := lt_of_le_of_ne (hm g (by simp)) (Ne.symm hgd)
          have hc : (g :: l).count d = 0 := by
            rw [List.count_eq_zero]
            intro hmem
            rcases List.mem_cons.mp hmem with e | e
            · omega
            · have := hs.1 d e; omega
          rw [hc]
          simp only [List.replicate_zero, List.nil_append]
          symm
          rw [List.filter_eq_self]
          intro x hx
          rcases List.mem_cons.mp hx with e | e
          · simp [e, hgd]
          · have := hs.1 x e
            simp; omega
    rw [List.pairwise_cons] at hd
    have hm : ∀ g ∈ gs, d ≤ g := by
      intro g hgm
      rcases List.mem_cons.mp (h g hgm) with e | e
      · exact e.ge
      · exact (hd.1 g e).le
    conv_rhs => rw [hsplit gs hg hm]
    rw [List.flatMap_cons]
    congr 1
    rw [← ih (gs := gs.filter fun g => decide (g ≠ d)) hd.2 (hg.sublist List.filter_sublist)]
    · rw [List.flatMap_def, List.flatMap_def]
      congr 1
      apply List.map_congr_left
      intro x hx
      have hne : x ≠ d := by have := hd.1 x hx; omega
      rw [List.count_filter (by simpa using hne)]
    · intro g hgm
      rw [List.mem_filter] at hgm
      rcases List.mem_cons.mp (h g hgm.1) with e | e
      · simp [e] at hgm
      · exact e

/-- in increasing order of the groups, every row gets a level drawn between its own limits -/
theorem replaceLevels_sorted {ord : List Nat → List Nat}
    (hord : ∀ l : List Nat, l.Nodup → (ord l).Perm l ∧ (ord l).Pairwise (· < ·)) (u : Nat → ℚ)
    {inv : List InvalidRow} (hs : (inv.map InvalidRow.group).Pairwise (· ≤ ·))
    (hlim : ∀ r ∈ inv, ∀ q ∈ inv, r.group = q.group → r.prevEnd = q.prevEnd ∧ r.nextStart = q.nextStart) :
    ∃ j : Nat → Nat, replaceLevels ord u inv =
      inv.map fun r => uniform r.prevEnd r.nextStart (u (j r.group)) := by
  obtain ⟨hp, hsort⟩ := hord _ (List.nodup_dedup (inv.map InvalidRow.group))
  set ds := ord (inv.map InvalidRow.group).dedup with hds
  have hmem : ∀ g, g ∈ ds ↔ g ∈ inv.map InvalidRow.group := by
    intro g; rw [hp.mem_iff, List.mem_dedup]
  let L : Nat → ℚ := fun g => match inv.filter fun r => decide (r.group = g) with
    | [] => 0
    | r :: _ => uniform r.prevEnd r.nextStart (u (ds.idxOf g))
  have hL : ∀ r ∈ inv, L r.group = uniform r.prevEnd r.nextStart (u (ds.idxOf r.group)) := by
    intro r hr
    simp only [L]
    cases hf : (inv.filter fun q => decide (q.group = r.group)) with
    | nil =>
      rw [List.filter_eq_nil_iff] at hf
      exact absurd (by simp) (hf r hr)
    | cons q l =>
      have hq : q ∈ inv.filter fun q => decide (q.group = r.group) := by rw [hf]; simp
      rw [List.mem_filter] at hq
      obtain ⟨e1, e2⟩ := hlim q hq.1 r hr (by simpa using hq.2)
      simp only [e1, e2]
  refine ⟨fun g => ds.idxOf g, ?_⟩
  have h1 : replaceLevels ord u inv =
      (ds.flatMap fun g => List.replicate ((inv.map InvalidRow.group).count g) g).map L := by
    unfold replaceLevels
    rw [← hds, List.flatMap_def, List.map_flatten, List.map_map]
    congr 1
    have hz : ∀ x ∈ ds.zipIdx, x.2 = ds.idxOf x.1 := by
      intro x hx
      obtain ⟨k, hk, rfl⟩ := List.getElem_of_mem hx
      simp only [List.getElem_zipIdx, zero_add]
      exact (List.Nodup.idxOf_getElem (hsort.imp fun h => h.ne) k (by simpa using hk)).symm
    conv_rhs => rw [← List.zipIdx_map_fst 0 ds, List.map_map]
    apply List.map_congr_left
    intro x hx
    simp only [Function.comp, List.map_replicate]
    have hc : (inv.map InvalidRow.group).count x.1 = (inv.filter fun r => decide (r.group = x.1)).length := by
      rw [List.count, List.countP_map, List.countP_eq_length_filter]
      congr 1
    rw [hc]
    simp only [L]
    cases hf : (inv.filter fun r => decide (r.group = x.1)) with
    | nil => rfl
    | cons r l => simp only [hz x hx]
  rw [h1, flatMap_replicate_sorted hsort hs (fun g hg => (hmem g).mpr hg), List.map_map]
  apply List.map_congr_left
  intro r hr
  exact hL r hr

theorem fillInvalid_map {β : Type} (h : β → ℚ) (xs : List (Cell × β)) :
    fillInvalid (xs.map Prod.fst) ((xs.filter fun x => x.1.isNone).map fun x => h x.2) =
      xs.map fun x => some (x.1.getD (h x.2)) := by
  induction xs with
  | nil => rfl
  | cons x l ih =>
    obtain ⟨c, b⟩ := x
    cases c with
    | some a => simp only [List.map_cons, List.filter_cons, Option.isNone_some, fillInvalid]; simpa using ih
    | none => simp only [List.map_cons, List.filter_cons, Option.isNone_none, fillInvalid]; simpa [fillInvalid] using ih

/-- end of a valid interval: its start plus slope times length -/
theorem simulate_end {m : SrrMethod} {v : Nat → ℚ} {s : ℚ} {n : Nat} {l : List (Interval × ℚ)} {k : Nat}
    (hk : k < l.length) (hv : l[k].1.valid = true) :
    ∃ a, (simulate m v s n l)[k]'(by rw [simulate_length]; exact hk) =
      (some a, some (a + l[k].2 * l[k].1.length)) := by
  induction l generalizing s n k with
  | nil => simp at hk
  | cons x l ih =>
    obtain ⟨i, sl⟩ := x
    cases k with
    | zero =>
      simp only [List.getElem_cons_zero] at hv ⊢
      refine ⟨s, ?_⟩
      simp only [simulate, hv, if_true, List.getElem_cons_zero]
    | succ k =>
      simp only [List.getElem_cons_succ] at hv ⊢
      simp only [simulate]
      split_ifs with hi
      · simp only [List.getElem_cons_succ]
        exact ih (by simpa using hk) hv
      · simp only [List.getElem_cons_succ]
        exact ih (by simpa using hk) hv

theorem simulate_invalid {m : SrrMethod} {v : Nat → ℚ} {s : ℚ} {n : Nat} {l : List (Interval × ℚ)} {k : Nat}
    (hk : k < l.length) (hv : l[k].1.valid = false) :
    (simulate m v s n l)[k]'(by rw [simulate_length]; exact hk) = (none, none) := by
  induction l generalizing s n k with
  | nil => simp at hk
  | cons x l ih =>
    obtain ⟨i, sl⟩ := x
    cases k with
    | zero =>
      simp only [List.getElem_cons_zero] at hv ⊢
      simp only [simulate, hv]
      rfl
    | succ k =>
      simp only [List.getElem_cons_succ] at hv ⊢
      simp only [simulate]
      split_ifs with hi
      · simp only [List.getElem_cons_succ]
        exact ih (by simpa using hk) hv
      · simp only [List.getElem_cons_succ]
        exact ih (by simpa using hk) hv

/-- the start losses when the groups are visited in increasing order -/
theorem startLosses_levels {ord : List Nat → List Nat}
    (hord : ∀ l : List Nat, l.Nodup → (ord l).Perm l ∧ (ord l).Pairwise (· < ·)) {m : SrrMethod}
    (hm : m ≠ .perfectClean) {dr : SrrDraw} {tab : List Interval} {starts : List Cell}
    (h : startLosses ord m dr tab = .ok starts) :
    ∃ se : List (Cell × Cell), ∃ hse : se.length = tab.length, ∃ hst : starts.length = tab.length,
      (∀ k (hk : k < tab.length), tab[k].valid = true → ∃ a, starts[k] = some a ∧ se[k] =
        (some a, some (a + uniform tab[k].low tab[k].high (dr.slope k) * tab[k].length))) ∧
      (∀ k (hk : k < tab.length), tab[k].valid = false → se[k] = (none, none)) ∧
      ∃ j : Nat → Nat, ∀ k (hk : k < tab.length), tab[k].valid = false →
        starts[k] = some (uniform
          (((ffill (se.map Prod.snd))[k]'(by simp [ffill, ffillFrom_length]; omega)).getD 1)
          (((bfill (se.map Prod.fst))[k]'(by simp [bfill_length]; omega)).getD 1)
          (dr.level (j ((tab.take (k + 1)).countP Interval.valid)))) := by
  obtain ⟨se, hdef, hstarts⟩ : ∃ se, se = simulate m dr.recovery 1 0 (tab.zip (drawSlopes dr.slope tab)) ∧
      starts = fillInvalid (se.map Prod.fst) (replaceLevels ord dr.level (invalidRows tab se)) := by
    unfold startLosses at h
    cases m with
    | other => simp at h
    | perfectClean => exact absurd rfl hm
    | halfNorm => simp only [Except.ok.injEq] at h; exact ⟨_, rfl, h.symm⟩
    | randomClean => simp only [Except.ok.injEq] at h; exact ⟨_, rfl, h.symm⟩
  have hzl : (tab.zip (drawSlopes dr.slope tab)).length = tab.length := by simp [drawSlopes_length]
  have hse : se.length = tab.length := by rw [hdef, simulate_length, hzl]
  have hval : ∀ k (hk : k < tab.length), tab[k].valid = true → ∃ a, se[k] =
        (some a, some (a + uniform tab[k].low tab[k].high (dr.slope k) * tab[k].length)) := by
    intro k hk hv
    subst hdef
    have := simulate_end (m := m) (v := dr.recovery) (s := 1) (n := 0)
      (l := tab.zip (drawSlopes dr.slope tab)) (k := k) (by omega) (by rw [List.getElem_zip]; exact hv)
    simp only [List.getElem_zip, drawSlopes_getElem dr.slope tab hk] at this
    exact this
  have hinv : ∀ k (hk : k < tab.length), tab[k].valid = false → se[k] = (none, none) := by
    intro k hk hv
    subst hdef
    exact simulate_invalid (by omega) (by rw [List.getElem_zip]; exact hv)
  -- the table zipped with groups and limits
  set big := (tab.zip (groupsFrom 0 tab)).zip ((ffill (se.map Prod.snd)).zip (bfill (se.map Prod.fst))) with hbig
  have hbl : big.length = tab.length := by
    simp [hbig, groupsFrom_length, ffill, ffillFrom_length, bfill_length, hse]
  let row : (Interval × Nat) × (Cell × Cell) → InvalidRow := fun x => ⟨x.1.2, x.2.1.getD 1, x.2.2.getD 1⟩
  have hrow : ∀ k (hk : k < tab.length), (big[k]'(by omega)) =
      ((tab[k], (tab.take (k + 1)).countP Interval.valid),
        ((ffill (se.map Prod.snd))[k]'(by simp [ffill, ffillFrom_length]; omega),
         (bfill (se.map Prod.fst))[k]'(by simp [bfill_length]; omega))) := by
    intro k hk
    simp only [hbig, List.getElem_zip, groupsFrom_getElem 0 tab hk, zero_add]
  have hinvrows : invalidRows tab se = (big.filter fun x => !x.1.1.valid).map row := rfl
  -- rows of the same group lie in the same gap
  have hstep : ∀ d k (hk : k + d < tab.length), tab[k].valid = false →
      (tab.take (k + 1)).countP Interval.valid = (tab.take (k + d + 1)).countP Interval.valid →
      (∀ i (hi : i < tab.length), k ≤ i → i ≤ k + d → tab[i].valid = false) := by
    intro d k hk hv hc i hi h1 h2
    cases hvi : tab[i].valid with
    | false => rfl
    | true =>
      exfalso
      have hne : k < i := by
        rcases Nat.lt_or_eq_of_le h1 with g | g
        · exact g
        · subst g; rw [hv] at hvi; simp at hvi
      have a1 : (tab.take (k + 1)).countP Interval.valid ≤ (tab.take i).countP Interval.valid :=
        (List.take_sublist_take_left (by omega)).countP_le
      have a2 : (tab.take (i + 1)).countP Interval.valid ≤ (tab.take (k + d + 1)).countP Interval.valid :=
        (List.take_sublist_take_left (by omega)).countP_le
      have a3 : (tab.take (i + 1)).countP Interval.valid = (tab.take i).countP Interval.valid + 1 := by
        rw [List.take_succ_eq_append_getElem hi, List.countP_append]
        simp [hvi]
      omega
  have hlimits : ∀ d k (hk : k + d < tab.length), tab[k].valid = false →
      (tab.take (k + 1)).countP Interval.valid = (tab.take (k + d + 1)).countP Interval.valid →
      row (big[k]'(by omega)) = row (big[k + d]'(by omega)) := by
    intro d
    induction d with
    | zero => intros; rfl
    | succ d ih =>
      intro k hk hv hc
      have hall := hstep (d + 1) k hk hv hc
      have hc' : (tab.take (k + 1)).countP Interval.valid = (tab.take (k + d + 1)).countP Interval.valid := by
        apply le_antisymm
        · exact (List.take_sublist_take_left (by omega)).countP_le
        · rw [hc]; exact (List.take_sublist_take_left (by omega)).countP_le
      rw [ih k (by omega) hv hc']
      simp only [row]
      rw [hrow (k + d) (by omega), hrow (k + (d + 1)) hk]
      simp only
      have e1 := hinv (k + d) (by omega) (hall (k + d) (by omega) (by omega) (by omega))
      have e2 := hinv (k + (d + 1)) hk (hall (k + (d + 1)) hk (by omega) (by omega))
      have s1 : (ffill (se.map Prod.snd))[k + (d + 1)]'(by simp [ffill, ffillFrom_length]; omega) =
          (ffill (se.map Prod.snd))[k + d]'(by simp [ffill, ffillFrom_length]; omega) := by
        unfold ffill
        apply ffillFrom_step (k := k + d) (by simp; omega)
        rw [List.getElem_map]
        have : se[k + d + 1]'(by omega) = (none, none) := e2
        rw [this]
      have s2 : (bfill (se.map Prod.fst))[k + d]'(by simp [bfill_length]; omega) =
          (bfill (se.map Prod.fst))[k + (d + 1)]'(by simp [bfill_length]; omega) := by
        apply bfill_step' (k := k + d) (by simp; omega)
        rw [List.getElem_map, e1]
      have s3 : (tab.take (k + d + 1)).countP Interval.valid =
          (tab.take (k + (d + 1) + 1)).countP Interval.valid := by rw [← hc', hc]
      rw [s1, s2, s3]
  have hlim : ∀ r ∈ invalidRows tab se, ∀ q ∈ invalidRows tab se, r.group = q.group →
      r.prevEnd = q.prevEnd ∧ r.nextStart = q.nextStart := by
    have key : ∀ r ∈ invalidRows tab se, ∃ k, ∃ hk : k < tab.length, tab[k].valid = false ∧
        r = row (big[k]'(by omega)) := by
      intro r hr
      rw [hinvrows, List.mem_map] at hr
      obtain ⟨x, hx, rfl⟩ := hr
      rw [List.mem_filter] at hx
      obtain ⟨k, hk, rfl⟩ := List.getElem_of_mem hx.1
      rw [hbl] at hk
      refine ⟨k, hk, ?_, rfl⟩
      have := hx.2
      rw [hrow k hk] at this
      simpa using this
    have ordd : ∀ (k l : Nat) (hk : k < tab.length) (hl : l < tab.length), k ≤ l → tab[k].valid = false →
        (row (big[k]'(by omega))).group = (row (big[l]'(by omega))).group →
        row (big[k]'(by omega)) = row (big[l]'(by omega)) := by
      intro k l hk hl hkl hv hg
      obtain ⟨d, rfl⟩ : ∃ d, l = k + d := ⟨l - k, by omega⟩
      apply hlimits d k hl hv
      simp only [row, hrow k hk, hrow (k + d) hl] at hg
      exact hg
    intro r hr q hq hg
    obtain ⟨k, hk, hv, rfl⟩ := key r hr
    obtain ⟨l, hl, hv', rfl⟩ := key q hq
    rcases le_total k l with h | h
    · rw [ordd k l hk hl h hv hg]; exact ⟨rfl, rfl⟩
    · rw [ordd l k hl hk h hv' hg.symm]; exact ⟨rfl, rfl⟩
  have hsorted : ((invalidRows tab se).map InvalidRow.group).Pairwise (· ≤ ·) := by
    rw [hinvrows, List.map_map]
    have hb : (big.map fun x => (row x).group).Pairwise (· ≤ ·) := by
      rw [List.pairwise_iff_getElem]
      intro i j hi hj hij
      simp only [List.length_map, hbl] at hi hj
      simp only [List.getElem_map, row, hrow i hi, hrow j hj]
      exact (List.take_sublist_take_left (by omega)).countP_le
    exact hb.sublist (List.Sublist.map _ List.filter_sublist)
  obtain ⟨j, hj⟩ := replaceLevels_sorted hord dr.level hsorted hlim
  -- fill
  set xs := (se.map Prod.fst).zip big with hxs
  have hxl : xs.length = tab.length := by simp [hxs, hse, hbl]
  have hx1 : xs.map Prod.fst = se.map Prod.fst := List.map_fst_zip (by simp [hse, hbl])
  have hx2 : xs.map Prod.snd = big := List.map_snd_zip (by simp [hse, hbl])
  have hfil : (xs.filter fun x => x.1.isNone).map Prod.snd = big.filter fun x => !x.1.1.valid := by
    conv_rhs => rw [← hx2, List.filter_map]
    congr 1
    apply List.filter_congr
    intro x hx
    obtain ⟨k, hk, rfl⟩ := List.getElem_of_mem hx
    rw [hxl] at hk
    simp only [Function.comp, hxs, List.getElem_zip, List.getElem_map, hrow k hk]
    cases hv : tab[k].valid with
    | true =>
      obtain ⟨a, ha⟩ := hval k hk hv
      rw [ha]; rfl
    | false => rw [hinv k hk hv]; rfl
  have hfinal : starts = xs.map fun x => some (x.1.getD
      (uniform (row x.2).prevEnd (row x.2).nextStart (dr.level (j (row x.2).group)))) := by
    rw [hstarts, hj, hinvrows, ← hx1, ← hfil, List.map_map, List.map_map]
    exact fillInvalid_map (fun b => uniform (row b).prevEnd (row b).nextStart (dr.level (j (row b).group))) xs
  have hst : starts.length = tab.length := by rw [hfinal, List.length_map, hxl]
  have hget : ∀ k (hk : k < tab.length), starts[k] = some ((se[k]).1.getD
      (uniform (((ffill (se.map Prod.snd))[k]'(by simp [ffill, ffillFrom_length]; omega)).getD 1)
          (((bfill (se.map Prod.fst))[k]'(by simp [bfill_length]; omega)).getD 1)
          (dr.level (j ((tab.take (k + 1)).countP Interval.valid))))) := by
    intro k hk
    simp only [hfinal, List.getElem_map, hxs, List.getElem_zip, row, hrow k hk]
  refine ⟨se, hse, hst, fun k hk hv => ?_, hinv, j, fun k hk hv => ?_⟩
  · obtain ⟨a, ha⟩ := hval k hk hv
    refine ⟨a, ?_, ha⟩
    rw [hget k hk, ha]; rfl
  · rw [hget k hk, hinv k hk hv]; rfl

end Verif
