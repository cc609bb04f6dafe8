import Verif.Lemmas.EnergyTrap
import Verif.Lemmas.EnergyApi

/-! # The trapezoidal sum with gaps -/

namespace Verif
open Spec

/-- Instantaneous power: `t`, later than the first reading, is not inside a gap of more than `m` between readings nor at its end -/
def Spec.bridged (m : ℚ) (t : Int) : List (Int × ℚ) → Bool
  | (a, _) :: (b, vb) :: l => if t ≤ b then decide ((b : ℚ) - a ≤ m) else Spec.bridged m t ((b, vb) :: l)
  | _ => true

/-- Instantaneous power, readings `d` of a record that starts at `t0`: at `t` a power is available -/
def Spec.available (m : ℚ) (t0 t : Int) (d : List (Int × ℚ)) : Bool :=
  match d with
  | [] => false
  | (d0, _) :: _ => if t ≤ d0 then decide (t = t0 ∧ d0 = t0) else Spec.bridged m t d

/-- the energies of the pieces between neighbouring points that end in `(x, y]` and have power available at both ends -/
def Spec.trapPieces (m : ℚ) (t0 : Int) (d : List (Int × ℚ)) (x y : Int) : List Int → List ℚ
  | p :: u :: l => (if x < u ∧ u ≤ y ∧ Spec.available m t0 p d = true ∧ Spec.available m t0 u d = true
      then [trapIntegral p u d] else []) ++ Spec.trapPieces m t0 d x y (u :: l)
  | _ => []

theorem zip_getElem?_some {α β : Type} {l : List α} {k : List β} {i : Nat} {a : α} {b : β}
    (ha : l[i]? = some a) (hb : k[i]? = some b) : (l.zip k)[i]? = some (a, b) :=
  List.getElem?_zip_eq_some.mpr ⟨ha, hb⟩

theorem bridged_mask {m : ℚ} {d : List (Int × ℚ)} (hs : StrictSorted (keys d)) {t : Int} {r : Int × ℚ} {l : List (Int × ℚ)}
    (hd : d = r :: l) (ht : r.1 < t) :
    cellCmp (fun a b => decide (a > b)) (firstLabelGe (gaps (d.map Prod.fst)) t) (some m) = !Spec.bridged m t d := by
  subst hd
  obtain ⟨a, va⟩ := r
  simp only [List.map_cons, gaps, firstLabelGe] at ht ⊢
  rw [if_neg (by omega)]
  clear ht
  induction l generalizing a va with
  | nil => simp [gapsFrom, firstLabelGe, cellCmp, Spec.bridged]
  | cons s l ih =>
    obtain ⟨b, vb⟩ := s
    simp only [List.map_cons, gapsFrom, firstLabelGe, Spec.bridged]
    by_cases h : t ≤ b
    · rw [if_pos h, if_pos h]
      simp only [cellCmp]
      by_cases hm : (b : ℚ) - a ≤ m
      · simp [hm, not_lt.mpr hm]
      · simp [hm, not_le.mp hm]
    · rw [if_neg h, if_neg h]
      exact ih b vb (List.pairwise_cons.mp hs).2

theorem available_ge {m : ℚ} {t0 t : Int} {a : Int} {va : ℚ} {l : List (Int × ℚ)}
    (h : Spec.available m t0 t ((a, va) :: l) = true) : a ≤ t := by
  unfold Spec.available at h
  simp only at h
  split_ifs at h with h1
  · simp only [decide_eq_true_eq] at h
    omega
  · omega

/-- terms of the trapezoidal sum in `(x, y]` with gaps -/
theorem trapTerms_gaps {m : ℚ} {t0 : Int} {d : List (Int × ℚ)} (hs : StrictSorted (keys d)) {a : Int} {va : ℚ}
    {l : List (Int × ℚ)} (hd : d = (a, va) :: l) (v : Int → Cell)
    (hv : ∀ u, v u = if Spec.available m t0 u d = true then some (pl u d) else none) (x y : Int) :
    ∀ (U : List Int) (p : Int), StrictSorted (p :: U) → (∀ k ∈ keys d, p < k → k ∈ U) →
      valids (((trapTerms (p, v p) (rowsOf v U)).filter fun r => decide (x < r.1 ∧ r.1 ≤ y)).map Prod.snd) =
        Spec.trapPieces m t0 d x y (p :: U) := by
  intro U
  induction U with
  | nil => intro p _ _; simp [rowsOf, trapTerms, valids, Spec.trapPieces]
  | cons u U ih =>
    intro p hU hk
    have hU' := (List.pairwise_cons.mp hU).2
    have hpu : p < u := (List.pairwise_cons.mp hU).1 u (by simp)
    have hpU : ∀ w ∈ U, u < w := (List.pairwise_cons.mp hU').1
    have ih' := ih u hU' (fun k hk' hku => by
      rcases List.mem_cons.mp (hk k hk' (by omega)) with h | h
      · omega
      · exact h)
    have hrows : trapTerms (p, v p) (rowsOf v (u :: U)) =
        (u, cellOp (fun x y => (x + y) / 2 * (((u : ℚ) - p) / hourNs)) (v u) (v p)) ::
          trapTerms (u, v u) (rowsOf v U) := rfl
    rw [hrows, Spec.trapPieces, ← ih', List.filter_cons]
    by_cases hxy : x < u ∧ u ≤ y
    · rw [if_pos (by simpa using hxy)]
      by_cases hp : Spec.available m t0 p d = true
      · by_cases hu : Spec.available m t0 u d = true
        · have hap : a ≤ p := available_ge (by rw [← hd]; exact hp)
          have := trap_local hs hpu (fun k hk' hlt => by
            rcases List.mem_cons.mp (hk k hk' hlt.1) with h | h
            · omega
            · have := hpU k h; omega) hd hap
          rw [if_pos ⟨hxy.1, hxy.2, hp, hu⟩, hv u, hv p, if_pos hp, if_pos hu, this, ← hourNs_eq]
          simp [valids, cellOp]
        · rw [if_neg (fun h => hu h.2.2.2), hv u, if_neg hu]
          simp [valids, cellOp]
      · rw [if_neg (fun h => hp h.2.2.1), hv p, if_neg hp]
        cases v u <;> simp [valids, cellOp]
    · rw [if_neg (by simpa using hxy), if_neg (fun h => hxy ⟨h.1, h.2.1⟩)]
      rfl

/-- the result of `_aggregate` for instantaneous power; `P` are the timestamps and the edges of the periods in order -/
theorem aggregate_inst_gaps {ts : Series} (hs : StrictSorted (keys ts)) {f : Int} (hf : 0 < f)
    (m : ℚ) {t0 tn : Int} (h0 : (keys ts).head? = some t0) (hn : (keys ts).getLast? = some tn) (hd : dropna ts ≠ []) :
    aggregate ts f m .instantaneous = .ok ((rightLabels t0 tn f).tail.map fun L =>
      (L, total (Spec.trapPieces m t0 (dropna ts) (L - f) L (sortedUnion (keys ts ++ rightLabels t0 tn f))))) := by
  have hds := dropna_sorted hs
  have hdsub : ∀ k ∈ keys (dropna ts), k ∈ keys ts := fun k hk => keys_dropna_sub hk
  unfold aggregate
  cases hk : ts.map Prod.fst with
  | nil => rw [show keys ts = [] from hk] at h0; simp at h0
  | cons t0' trest =>
    have hk' : keys ts = t0' :: trest := hk
    rw [hk'] at h0 hn hdsub ⊢
    simp only [List.head?_cons, Option.some.injEq] at h0
    subst h0
    have hlast : (t0' :: trest).getLastD t0' = tn := by
      rw [List.getLastD_eq_getLast?, hn]; rfl
    rw [hk'] at hs
    have h0n : t0' ≤ tn := by
      have := List.mem_of_getLast? hn
      rcases List.mem_cons.mp this with h | h
      · omega
      · exact ((List.pairwise_cons.mp hs).1 tn h).le
    dsimp only
    rw [hlast]
    generalize hlab : rightLabels t0' tn f = labels
    have htail : ∀ L ∈ labels.tail, L ∈ labels ∧ L - f ∈ labels := by
      rw [← hlab]; exact fun L hL => rightLabels_tail hL
    have hlabge : ∀ L ∈ labels, t0' ≤ L := by
      rw [← hlab]
      intro L hL
      obtain ⟨k, _, rfl⟩ := List.mem_map.mp hL
      have : 0 ≤ (k : Int) * f := mul_nonneg (Int.natCast_nonneg k) hf.le
      omega
    have hUs := sortedUnion_sorted (t0' :: trest ++ labels)
    have hUm : ∀ u, u ∈ sortedUnion (t0' :: trest ++ labels) ↔ u ∈ t0' :: trest ∨ u ∈ labels := by
      intro u; rw [mem_sortedUnion, List.mem_append]
    generalize sortedUnion (t0' :: trest ++ labels) = U at hUs hUm
    have hUge : ∀ u ∈ U, t0' ≤ u := by
      intro u hu
      rcases (hUm u).mp hu with h | h
      · rcases List.mem_cons.mp h with h' | h'
        · omega
        · exact ((List.pairwise_cons.mp hs).1 u h').le
      · exact hlabge u h
    have hUhead : ∃ V, U = t0' :: V := by
      cases U with
      | nil => have := (hUm t0').mpr (Or.inl (by simp)); simp at this
      | cons u V =>
        have h1 := hUge u (by simp)
        have h2 : u ≤ t0' := by
          rcases List.mem_cons.mp ((hUm t0').mpr (Or.inl (by simp))) with h | h
          · omega
          · exact ((List.pairwise_cons.mp hUs).1 t0' h).le
        exact ⟨V, by rw [le_antisymm h2 h1]⟩
    obtain ⟨V, hV⟩ := hUhead
    have hdge : ∀ k ∈ keys (dropna ts), t0' ≤ k := fun k hk2 => hUge k ((hUm k).mpr (Or.inl (hdsub k hk2)))
    generalize dropna ts = d at *
    cases d with
    | nil => exact absurd rfl hd
    | cons r l =>
      obtain ⟨d0, v0⟩ := r
      dsimp only
      have hd0 : t0' ≤ d0 := hdge d0 (by simp [keys])
      generalize hDD : (d0, v0) :: l = D at *
      have hkR : keys (reindexK (toSeries D) U) = U := keys_reindexK _ _
      have hdR : dropna (reindexK (toSeries D) U) = D := by
        apply eq_of_sorted_mem (dropna_sorted (by rw [hkR]; exact hUs)) hds
        rintro ⟨u, w⟩
        rw [mem_dropna, mem_reindexK_some, mem_toSeries]
        · rw [keys_toSeries]; exact hds.nodup
        · intro z hz; rw [keys_toSeries] at hz; exact (hUm z).mpr (Or.inl (hdsub z hz))
      have hint : ∀ (i : Nat) (hi : i < U.length), (interpFrom none (reindexK (toSeries D) U))[i]? =
          some (U[i], if d0 ≤ U[i] then some (pl U[i] D) else none) := by
        intro i hiU
        have hlen : (interpFrom none (reindexK (toSeries D) U)).length = U.length := by
          have := congrArg List.length (keys_interpFrom none (reindexK (toSeries D) U))
          simp only [keys, List.length_map] at this
          rw [this]
          simp [reindexK]
        have hi1 : i < (interpFrom none (reindexK (toSeries D) U)).length := by omega
        rw [List.getElem?_eq_getElem hi1]
        have hkI : keys (interpFrom none (reindexK (toSeries D) U)) = U := by
          rw [keys_interpFrom, hkR]
        have hfst : ((interpFrom none (reindexK (toSeries D) U))[i]).1 = U[i] := by
          have : (keys (interpFrom none (reindexK (toSeries D) U)))[i]'(by simpa using hi1) = U[i] := by
            simp only [hkI]
          simpa [keys] using this
        have hmem := List.getElem_mem hi1
        have hlook : lookupK (interpFrom none (reindexK (toSeries D) U)) U[i] =
            ((interpFrom none (reindexK (toSeries D) U))[i]).2 := by
          apply lookupK_of_mem
          · rw [hkI]; exact hUs.nodup
          · rw [← hfst]; exact hmem
        have hrow : (U[i], lookupK (toSeries D) U[i]) ∈ reindexK (toSeries D) U :=
          List.mem_map.mpr ⟨U[i], List.getElem_mem hiU, rfl⟩
        rw [lookup_interpFrom (by rw [hkR]; exact hUs) none hrow, hdR] at hlook
        have hval : (lookupK (toSeries D) U[i]).or (combine ((prevRow D U[i]).or none)
            (nextRow D U[i]) U[i]) = if d0 ≤ U[i] then some (pl U[i] D) else none := by
          cases hl : lookupK (toSeries D) U[i] with
          | some w =>
            have hm := (lookup_toSeries_some hds).mp hl
            have hge : d0 ≤ U[i] := by
              rw [← hDD] at hm hds
              rcases List.mem_cons.mp hm with h | h
              · cases h; exact le_refl _
              · exact ((List.pairwise_cons.mp hds).1 U[i] (List.mem_map.mpr ⟨_, h, rfl⟩)).le
            rw [if_pos hge, pl_at hds hm]; rfl
          | none =>
            have hnk := lookup_toSeries_none.mp hl
            rw [Option.none_or, Option.or_none]
            have h2 : U[i] ≠ d0 := fun e => hnk (by rw [e, ← hDD]; simp [keys])
            by_cases hge : d0 ≤ U[i]
            · rw [if_pos hge]
              exact combine_pl hds hnk hDD.symm (by omega)
            · rw [if_neg hge]
              have hp : prevRow D U[i] = none := by
                unfold prevRow
                rw [List.filter_eq_nil_iff.mpr]
                · rfl
                · intro r hr
                  have : d0 ≤ r.1 := by
                    rw [← hDD] at hr hds
                    rcases List.mem_cons.mp hr with h | h
                    · rw [h]
                    · exact ((List.pairwise_cons.mp hds).1 r.1 (List.mem_map.mpr ⟨_, h, rfl⟩)).le
                  simp; omega
              rw [hp]
              rfl
        rw [hval] at hlook
        exact congrArg some (Prod.ext hfst hlook.symm)
      have hrows : ((interpFrom none (reindexK (toSeries D) U)).zip
          ((reindexBfill (gaps (List.map Prod.fst D)) U).map fun r =>
            cellCmp (fun a b => decide (a > b)) r.2 (some m) ||
              (decide (d0 ≠ U.headD d0) && decide (r.1 ≤ d0)))).map
            (fun x => if x.2 = true then (x.1.1, none) else x.1) =
          rowsOf (fun u => if Spec.available m t0' u D = true then some (pl u D) else none) U := by
        have hhead : U.headD d0 = t0' := by rw [hV]; rfl
        rw [hhead]
        apply List.ext_getElem?
        intro i
        by_cases hi : i < U.length
        · have hmask : ((reindexBfill (gaps (List.map Prod.fst D)) U).map fun r =>
              cellCmp (fun a b => decide (a > b)) r.2 (some m) ||
                (decide (d0 ≠ t0') && decide (r.1 ≤ d0)))[i]? =
              some (cellCmp (fun a b => decide (a > b)) (firstLabelGe (gaps (List.map Prod.fst D)) U[i]) (some m) ||
                (decide (d0 ≠ t0') && decide (U[i] ≤ d0))) := by
            rw [List.getElem?_map, reindexBfill, List.getElem?_map, List.getElem?_eq_getElem hi]; rfl
          rw [List.getElem?_map, zip_getElem?_some (hint i hi) hmask]
          rw [rowsOf, List.getElem?_map, List.getElem?_eq_getElem hi]
          simp only [Option.map_some, Option.some.injEq]
          have hUi := hUge U[i] (List.getElem_mem hi)
          generalize U[i] = u at hUi
          rw [← hDD]
          by_cases hle : u ≤ d0
          · have hA : Spec.available m t0' u ((d0, v0) :: l) = decide (u = t0' ∧ d0 = t0') := by
              simp [Spec.available, hle]
            simp only [hA]
            have hg : firstLabelGe (gaps (((d0, v0) :: l).map Prod.fst)) u = none := by
              simp [gaps, firstLabelGe, hle]
            rw [hg]
            by_cases he : d0 = t0'
            · have hut : u = t0' := by omega
              simp [cellCmp, he, hut]
            · simp [cellCmp, he, hle]
          · have hds' := hds
            rw [← hDD] at hds'
            have hA : Spec.available m t0' u ((d0, v0) :: l) = Spec.bridged m u ((d0, v0) :: l) := by
              simp [Spec.available, hle]
            simp only [hA]
            rw [bridged_mask hds' rfl (by simp only; omega), if_pos (show d0 ≤ u by omega)]
            cases Spec.bridged m u ((d0, v0) :: l) <;> simp [hle]
        · rw [List.getElem?_eq_none, List.getElem?_eq_none]
          · simp [rowsOf]; omega
          · simp [reindexBfill]; omega
      rw [hrows, hV]
      have hwin : ∀ x y, _ := fun x y => trapTerms_gaps (m := m) (t0 := t0') hds hDD.symm
        (fun u => if Spec.available m t0' u D = true then some (pl u D) else none) (fun _ => rfl) x y V t0'
        (by rw [← hV]; exact hUs)
        (fun k hk' hlt => by
          have := (hUm k).mpr (Or.inl (hdsub k hk'))
          rw [hV] at this
          rcases List.mem_cons.mp this with h | h
          · omega
          · exact h)
      simp only [rowsOf, List.map_cons] at hwin ⊢
      congr 1
      rw [← List.map_tail]
      apply List.map_congr_left
      intro L hL
      obtain ⟨hL1, hL2⟩ := htail L hL
      congr 1
      rw [sumMinCount1_eq, List.filter_cons, if_neg (by
        have := hlabge _ hL2
        simp; omega), hwin (L - f) L]

end Verif
