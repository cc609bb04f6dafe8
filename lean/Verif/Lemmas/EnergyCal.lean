import Verif.Model.EnergyCal
import Verif.Props.Energy

/-! Lemmas about the aggregation of power over calendar periods. -/

namespace Verif
open Spec

/-- bins of an increasing grid, without the first -/
theorem mem_bins {grid : List Int} (hs : StrictSorted grid) {x y : Int} (h : (x, y) ∈ (grid.zip grid.tail).tail) :
    x ∈ grid.tail ∧ y ∈ grid.tail ∧ x < y := by
  cases grid with
  | nil => simp at h
  | cons e0 g =>
    cases g with
    | nil => simp at h
    | cons e1 g =>
      simp only [List.tail_cons, List.zip_cons_cons] at h ⊢
      have hs1 := (List.pairwise_cons.mp hs).2
      have h2 := List.of_mem_zip h
      refine ⟨h2.1, List.mem_cons_of_mem _ h2.2, ?_⟩
      obtain ⟨l1, l2, e⟩ := adjacent_zip.mpr (show (x, y) ∈ (e1 :: g).zip (e1 :: g).tail from h)
      rw [e] at hs1
      exact (List.pairwise_cons.mp (List.pairwise_append.mp hs1).2.1).1 y (by simp)

/-- the result of `_aggregate` over calendar periods for right-labeled power -/
theorem aggregateEdges_right {ts : Series} (hs : StrictSorted (keys ts)) {grid : List Int} (hg : StrictSorted grid)
    (m : ℚ) (hd : dropna ts ≠ []) :
    aggregateEdges ts grid (fun _ => grid) m .rightLabeled = .ok ((grid.zip grid.tail).tail.map fun e =>
      (e.2, total (rectContributions m e.1 e.2 (dropna ts)))) := by
  have hds := dropna_sorted hs
  have hdsub : ∀ k ∈ keys (dropna ts), k ∈ keys ts := fun k hk => keys_dropna_sub hk
  have hne : keys ts ≠ [] := by
    intro h
    obtain ⟨r, l, e⟩ := List.exists_cons_of_ne_nil hd
    have := hdsub r.1 (by rw [e]; simp [keys])
    rw [h] at this; simp at this
  unfold aggregateEdges
  have hbins : ∀ e ∈ (grid.zip grid.tail).tail, e.1 ∈ grid.tail ∧ e.2 ∈ grid.tail ∧ e.1 < e.2 :=
    fun e he => mem_bins hg he
  generalize hlab : grid.tail = labels at hbins
  dsimp only
  have hUs := sortedUnion_sorted (ts.map Prod.fst ++ labels)
  have hUm : ∀ u, u ∈ sortedUnion (ts.map Prod.fst ++ labels) ↔ u ∈ keys ts ∨ u ∈ labels := by
    intro u; rw [mem_sortedUnion, List.mem_append]
  generalize sortedUnion (ts.map Prod.fst ++ labels) = U at hUs hUm
  have hUhead : ∃ u0 V, U = u0 :: V := by
    cases U with
    | nil =>
      obtain ⟨k, l, e⟩ := List.exists_cons_of_ne_nil hne
      have := (hUm k).mpr (Or.inl (by rw [e]; simp)); simp at this
    | cons u V => exact ⟨u, V, rfl⟩
  obtain ⟨u0, V, hV⟩ := hUhead
  have hUge : ∀ u ∈ U, u0 ≤ u := by
    intro u hu
    rw [hV] at hu hUs
    rcases List.mem_cons.mp hu with h | h
    · omega
    · exact ((List.pairwise_cons.mp hUs).1 u h).le
  generalize dropna ts = d at *
  cases d with
  | nil => exact absurd rfl hd
  | cons r l =>
    obtain ⟨d0, v0⟩ := r
    dsimp only
    -- rows of the filled column
    have hbf : bfillK (reindexK (toSeries ((d0, v0) :: l)) U) =
        U.map fun u => (u, firstSomeGe (toSeries ((d0, v0) :: l)) u) := by
      have hkR : keys (reindexK (toSeries ((d0, v0) :: l)) U) = U := keys_reindexK _ _
      rw [bfillK_eq (by rw [hkR]; exact hUs)]
      have hfs : ∀ u, firstSomeGe (reindexK (toSeries ((d0, v0) :: l)) U) u =
          firstSomeGe (toSeries ((d0, v0) :: l)) u := by
        intro u
        apply firstSomeGe_congr (by rw [hkR]; exact hUs) (by rw [keys_toSeries]; exact hds)
        intro w a
        apply mem_reindexK_some
        · rw [keys_toSeries]; exact hds.nodup
        · intro z hz; rw [keys_toSeries] at hz; exact (hUm z).mpr (Or.inl (hdsub z hz))
      simp only [hfs]
      conv_rhs => rw [← hkR]
      simp [keys]
    rw [hbf]
    set v : Int → Cell := fun u =>
      if (cellCmp (fun a b => decide (a > b))
          (firstLabelGe (gaps (List.map Prod.fst ((d0, v0) :: l))) u) (some m) ||
        (decide (d0 ≠ U.headD d0) && decide (u ≤ d0))) = true then none
      else firstSomeGe (toSeries ((d0, v0) :: l)) u with hvdef
    have hrows : ((U.map fun u => (u, firstSomeGe (toSeries ((d0, v0) :: l)) u)).zip
        ((reindexBfill (gaps (List.map Prod.fst ((d0, v0) :: l))) U).map fun r =>
          cellCmp (fun a b => decide (a > b)) r.2 (some m) ||
            (decide (d0 ≠ U.headD d0) && decide (r.1 ≤ d0)))).map
          (fun x => if x.2 = true then (x.1.1, none) else x.1) = rowsOf v U := by
      generalize U.headD d0 = hd0 at hvdef ⊢
      clear_value v
      subst hvdef
      clear hUs hUm hUge hV hbf
      induction U with
      | nil => rfl
      | cons u U ih =>
        simp only [reindexBfill, List.map_cons, List.zip_cons_cons, rowsOf] at ih ⊢
        rw [ih]
        congr 1
        split <;> rfl
    rw [hrows, hV]
    have hvr : ∀ u ∈ V, v u = rate m u ((d0, v0) :: l) := by
      intro u hu
      have hu0 : u0 < u := by
        rw [hV] at hUs; exact (List.pairwise_cons.mp hUs).1 u hu
      have hge : ∀ r ∈ ((d0, v0) :: l), d0 ≤ r.1 := by
        intro r hr
        rcases List.mem_cons.mp hr with h | h
        · rw [h]
        · exact ((List.pairwise_cons.mp hds).1 r.1 (List.mem_map.mpr ⟨r, h, rfl⟩)).le
      have hhead : U.headD d0 = u0 := by rw [hV]; rfl
      rw [hvdef]
      dsimp only
      rw [hhead]
      by_cases hud : u ≤ d0
      · rw [rate_none_of_le (fun r hr => hud.trans (hge r hr)), if_pos]
        simp [hud]; right; omega
      · have hud' : d0 < u := by omega
        rw [← fill_eq_rate l hud' hds]
        simp only [gaps, List.map_cons, firstLabelGe, toSeries, firstSomeGe]
        rw [if_neg hud, if_neg hud]
        simp [hud]
    have hwin := rectTerms_window hds v V u0 (by rw [← hV]; exact hUs)
      (fun k hk' hlt => by
        have := (hUm k).mpr (Or.inl (hdsub k hk'))
        rw [hV] at this
        rcases List.mem_cons.mp this with h | h
        · omega
        · exact h) hvr
    simp only [rowsOf, List.map_cons]
    congr 1
    rw [← List.map_tail, hlab]
    apply List.map_congr_left
    intro e he
    obtain ⟨hL2, hL1, hlt⟩ := hbins e he
    congr 1
    rw [sumMinCount1_eq]
    have hfilt : (((u0, (none : Cell)) :: rectTerms u0 (V.map fun u => (u, v u))).filter
        fun r => decide (e.1 < r.1 ∧ r.1 ≤ e.2)).map Prod.snd = 
        ((rectTerms u0 (rowsOf v V)).filter
        fun r => decide (e.1 < r.1 ∧ r.1 ≤ e.2)).map Prod.snd := by
      rw [List.filter_cons, if_neg]
      · rfl
      · have := hUge _ ((hUm _).mpr (Or.inr hL2))
        simp; omega
    rw [hfilt]
    obtain ⟨h1, h2⟩ := hwin e.1 e.2
      (by rw [← hV]; exact (hUm _).mpr (Or.inr hL2))
      (by rw [← hV]; exact (hUm _).mpr (Or.inr hL1)) (by omega)
    unfold total
    by_cases hT : rectContributions m e.1 e.2 ((d0, v0) :: l) = []
    · rw [if_pos hT, if_pos (h2.mpr hT)]
    · rw [if_neg hT, if_neg (fun h => hT (h2.mp h)), h1]

/-- the result of `_aggregate` over calendar periods for instantaneous power without gaps or leading NaNs -/
theorem aggregateEdges_inst {ts : Series} (hs : StrictSorted (keys ts)) {grid : List Int} (hg : StrictSorted grid)
    (m : ℚ) {t0 : Int} (h0 : (keys ts).head? = some t0) (hd0 : (keys (dropna ts)).head? = some t0)
    (hfirst : ∀ e ∈ grid.tail, t0 ≤ e)
    (hgap : ∀ a b, Adjacent (keys (dropna ts)) a b → (b : ℚ) - a ≤ m) :
    aggregateEdges ts grid (fun _ => grid) m .instantaneous = .ok ((grid.zip grid.tail).tail.map fun e =>
      (e.2, some (trapIntegral e.1 e.2 (dropna ts)))) := by
  have hds := dropna_sorted hs
  have hdsub : ∀ k ∈ keys (dropna ts), k ∈ keys ts := fun k hk => keys_dropna_sub hk
  unfold aggregateEdges
  have hbins : ∀ e ∈ (grid.zip grid.tail).tail, e.1 ∈ grid.tail ∧ e.2 ∈ grid.tail ∧ e.1 < e.2 :=
    fun e he => mem_bins hg he
  generalize hlab : grid.tail = labels at hbins hfirst
  dsimp only
  cases hk : ts.map Prod.fst with
  | nil => rw [show keys ts = [] from hk] at h0; simp at h0
  | cons t0' trest =>
    have hk' : keys ts = t0' :: trest := hk
    rw [hk'] at h0 hdsub
    simp only [List.head?_cons, Option.some.injEq] at h0
    subst h0
    rw [hk'] at hs
    have hlabge : ∀ L ∈ labels, t0' ≤ L := hfirst
    have hUs := sortedUnion_sorted (t0' :: trest ++ labels)
    have hUm : ∀ u, u ∈ sortedUnion (t0' :: trest ++ labels) ↔ u ∈ t0' :: trest ∨ u ∈ labels := by
      intro u; rw [mem_sortedUnion, List.mem_append]
    generalize sortedUnion (t0' :: trest ++ labels) = U at hUs hUm
    have hUge : ∀ u ∈ U, t0' ≤ u := by
      intro u hu
      rcases (hUm u).mp hu with h | h
      · rcases List.mem_cons.mp h with h' | h'
        · omega
        · exact ((List.pairwise_cons.mp hs).1 u h').le
      · exact hlabge u h
    have hUhead : ∃ V, U = t0' :: V := by
      cases U with
      | nil => have := (hUm t0').mpr (Or.inl (by simp)); simp at this
      | cons u V =>
        have h1 := hUge u (by simp)
        have h2 : u ≤ t0' := by
          rcases List.mem_cons.mp ((hUm t0').mpr (Or.inl (by simp))) with h | h
          · omega
          · exact ((List.pairwise_cons.mp hUs).1 t0' h).le
        exact ⟨V, by rw [le_antisymm h2 h1]⟩
    obtain ⟨V, hV⟩ := hUhead
    generalize dropna ts = d at *
    cases d with
    | nil => simp at hd0
    | cons r l =>
      obtain ⟨d0, v0⟩ := r
      simp only [keys, List.map_cons, List.head?_cons, Option.some.injEq] at hd0
      subst hd0
      dsimp only
      generalize hDD : (d0, v0) :: l = D at *
      -- interpolated column
      have hkR : keys (reindexK (toSeries D) U) = U := keys_reindexK _ _
      have hdR : dropna (reindexK (toSeries D) U) = D := by
        apply eq_of_sorted_mem (dropna_sorted (by rw [hkR]; exact hUs)) hds
        rintro ⟨u, w⟩
        rw [mem_dropna, mem_reindexK_some, mem_toSeries]
        · rw [keys_toSeries]; exact hds.nodup
        · intro z hz; rw [keys_toSeries] at hz; exact (hUm z).mpr (Or.inl (hdsub z hz))
      have hint : interpFrom none (reindexK (toSeries D) U) = U.map fun u => (u, some (pl u D)) := by
        apply List.ext_getElem
        · have := congrArg List.length (keys_interpFrom none (reindexK (toSeries D) U))
          simp only [keys, List.length_map] at this
          rw [this]
          simp [reindexK]
        · intro i hi1 hi2
          have hkI : keys (interpFrom none (reindexK (toSeries D) U)) = U := by
            rw [keys_interpFrom, hkR]
          have hiU : i < U.length := by simpa using hi2
          have hfst : ((interpFrom none (reindexK (toSeries D) U))[i]).1 = U[i] := by
            have : (keys (interpFrom none (reindexK (toSeries D) U)))[i]'(by simpa using hi1) = U[i] := by
              simp only [hkI]
            simpa [keys] using this
          have hmem := List.getElem_mem hi1
          have hlook : lookupK (interpFrom none (reindexK (toSeries D) U)) U[i] =
              ((interpFrom none (reindexK (toSeries D) U))[i]).2 := by
            apply lookupK_of_mem
            · rw [hkI]; exact hUs.nodup
            · rw [← hfst]; exact hmem
          have hrow : (U[i], lookupK (toSeries D) U[i]) ∈ reindexK (toSeries D) U :=
            List.mem_map.mpr ⟨U[i], List.getElem_mem hiU, rfl⟩
          rw [lookup_interpFrom (by rw [hkR]; exact hUs) none hrow, hdR] at hlook
          have hval : (lookupK (toSeries D) U[i]).or (combine ((prevRow D U[i]).or none)
              (nextRow D U[i]) U[i]) = some (pl U[i] D) := by
            cases hl : lookupK (toSeries D) U[i] with
            | some w =>
              rw [pl_at hds ((lookup_toSeries_some hds).mp hl)]; rfl
            | none =>
              have hnk := lookup_toSeries_none.mp hl
              rw [Option.none_or, Option.or_none]
              apply combine_pl hds hnk hDD.symm
              have h1 := hUge U[i] (List.getElem_mem hiU)
              have h2 : U[i] ≠ d0 := fun e => hnk (by rw [e, ← hDD]; simp [keys])
              omega
          rw [hval] at hlook
          simp only [List.getElem_map]
          exact Prod.ext hfst hlook.symm
      rw [hint]
      have hrows : ((U.map fun u => (u, some (pl u D))).zip
          ((reindexBfill (gaps (List.map Prod.fst D)) U).map fun r =>
            cellCmp (fun a b => decide (a > b)) r.2 (some m) ||
              (decide (d0 ≠ U.headD d0) && decide (r.1 ≤ d0)))).map
            (fun x => if x.2 = true then (x.1.1, none) else x.1) =
          rowsOf (fun u => some (pl u D)) U := by
        have hhead : U.headD d0 = d0 := by rw [hV]; rfl
        rw [hhead]
        clear hUs hUm hUge hV hint hkR hdR hhead
        induction U with
        | nil => rfl
        | cons u U ih =>
          simp only [reindexBfill, List.map_cons, List.zip_cons_cons, rowsOf] at ih ⊢
          rw [ih]
          congr 1
          rw [if_neg]
          simp only [ne_eq, not_true_eq_false, decide_false, Bool.false_and, Bool.or_false]
          cases hg : firstLabelGe (gaps (List.map Prod.fst D)) u with
          | none => simp [cellCmp]
          | some g =>
            have := firstLabelGe_gaps_le hgap hg
            simp only [cellCmp, gt_iff_lt, decide_eq_true_eq, not_lt]; exact this
      rw [hrows, hV]
      have hwin := trapTerms_window hds hDD.symm (fun u => some (pl u D)) V d0 (le_refl _)
        (by rw [← hV]; exact hUs)
        (fun k hk' hlt => by
          have := (hUm k).mpr (Or.inl (hdsub k hk'))
          rw [hV] at this
          rcases List.mem_cons.mp this with h | h
          · omega
          · exact h) (fun _ _ => rfl)
      simp only [rowsOf, List.map_cons] at hwin ⊢
      congr 1
      rw [← List.map_tail, hlab]
      apply List.map_congr_left
      intro e he
      obtain ⟨hL2, hL1, hlt⟩ := hbins e he
      congr 1
      rw [sumMinCount1_eq, List.filter_cons, if_neg (by
        have := hlabge _ hL2
        simp; omega)]
      obtain ⟨h1, h2⟩ := hwin e.1 e.2
        (by rw [← hV]; exact (hUm _).mpr (Or.inr hL2))
        (by rw [← hV]; exact (hUm _).mpr (Or.inr hL1)) (by omega)
      unfold total
      rw [if_neg (h2 (by omega)), h1]

theorem zip_tail_snoc {g : List Int} {last : Int} (h : g.getLast? = some last) (next : Int) :
    (g ++ [next]).zip (g ++ [next]).tail = g.zip g.tail ++ [(last, next)] := by
  induction g with
  | nil => simp at h
  | cons a g ih =>
    cases g with
    | nil => simp at h; simp [h]
    | cons b g =>
      have := ih (by rw [List.getLast?_cons_cons] at h; exact h)
      simp only [List.cons_append, List.tail_cons, List.zip_cons_cons] at this ⊢
      rw [this]

/-- one more edge, after everything else: one more row, without a value -/
theorem aggregateEdges_snoc {ts : Series} {grid : List Int} {ed : List Int → List Int} {last next : Int} (m : ℚ) (ty : PowerType)
    (hlen : 2 ≤ grid.length) (hl : grid.getLast? = some last) (hts : ∀ t ∈ keys ts, t ≤ last) (hg : ∀ e ∈ grid, e ≤ last)
    (hed : ed (sortedUnion (ts.map Prod.fst ++ grid.tail)) = grid ++ [next]) :
    aggregateEdges ts grid ed m ty = (aggregateEdges ts grid (fun _ => grid) m ty).map (· ++ [(next, none)]) := by
  have hU : ∀ u ∈ sortedUnion (ts.map Prod.fst ++ grid.tail), u ≤ last := by
    intro u hu
    rw [mem_sortedUnion, List.mem_append] at hu
    rcases hu with h | h
    · exact hts u h
    · exact hg u (List.mem_of_mem_tail h)
  have hbin : ∀ terms : List (Int × Cell), (∀ r ∈ terms, r.1 ≤ last) →
      (((grid ++ [next]).zip (grid ++ [next]).tail).map fun e : Int × Int =>
        (e.2, sumMinCount1 ((terms.filter fun r => decide (e.1 < r.1 ∧ r.1 ≤ e.2)).map Prod.snd))).tail =
      ((grid.zip grid.tail).map fun e : Int × Int =>
        (e.2, sumMinCount1 ((terms.filter fun r => decide (e.1 < r.1 ∧ r.1 ≤ e.2)).map Prod.snd))).tail ++ [(next, none)] := by
    intro terms ht
    rw [zip_tail_snoc hl, List.map_append, List.tail_append_of_ne_nil]
    · congr 1
      have : (terms.filter fun r => decide (last < r.1 ∧ r.1 ≤ next)) = [] := by
        rw [List.filter_eq_nil_iff]
        intro r hr
        have := ht r hr
        simp; omega
      rw [List.map_singleton]
      dsimp only
      rw [this]
      rfl
    · intro h
      have := congrArg List.length h
      simp at this
      omega
  unfold aggregateEdges
  dsimp only
  rw [hed]
  generalize sortedUnion (ts.map Prod.fst ++ grid.tail) = U at hU
  cases dropna ts with
  | nil => rfl
  | cons r l =>
    obtain ⟨d0, v0⟩ := r
    dsimp only
    have hfill : ∀ (f : List (Int × Cell)) (g : List Bool), keys f = U → ∀ r ∈ (f.zip g).map (fun x => if x.2 = true then
        (x.1.1, none) else x.1), r.1 ≤ last := by
      intro f g hf r hr
      obtain ⟨⟨a, b⟩, hx, rfl⟩ := List.mem_map.mp hr
      have : a.1 ∈ U := by rw [← hf]; exact List.mem_map.mpr ⟨a, (List.of_mem_zip hx).1, rfl⟩
      have := hU _ this
      cases b <;> exact this
    cases ty with
    | other => rfl
    | instantaneous =>
      dsimp only
      have := hfill (interpFrom none (reindexK (toSeries ((d0, v0) :: l)) U))
        ((reindexBfill (gaps (List.map Prod.fst ((d0, v0) :: l))) U).map fun r =>
          cellCmp (fun a b => decide (a > b)) r.2 (some m) || (decide (d0 ≠ U.headD d0) && decide (r.1 ≤ d0)))
        (by rw [keys_interpFrom, keys_reindexK])
      revert this
      generalize ((interpFrom none (reindexK (toSeries ((d0, v0) :: l)) U)).zip _).map _ = v
      intro hv
      cases v with
      | nil => rfl
      | cons r l' =>
        dsimp only [Except.map]
        rw [hbin]
        intro x hx
        rcases List.mem_cons.mp hx with rfl | hx
        · exact hv r (by simp)
        · have : x.1 ∈ keys l' := by show x.1 ∈ l'.map Prod.fst; rw [← keys_trapTerms r l']; exact List.mem_map.mpr ⟨x, hx, rfl⟩
          obtain ⟨y, hy, e⟩ := List.mem_map.mp this
          rw [← e]
          exact hv y (by simp [hy])
    | rightLabeled =>
      dsimp only
      have := hfill (bfillK (reindexK (toSeries ((d0, v0) :: l)) U))
        ((reindexBfill (gaps (List.map Prod.fst ((d0, v0) :: l))) U).map fun r =>
          cellCmp (fun a b => decide (a > b)) r.2 (some m) || (decide (d0 ≠ U.headD d0) && decide (r.1 ≤ d0)))
        (by rw [keys_bfillK, keys_reindexK])
      revert this
      generalize ((bfillK (reindexK (toSeries ((d0, v0) :: l)) U)).zip _).map _ = v
      intro hv
      cases v with
      | nil => rfl
      | cons r l' =>
        dsimp only [Except.map]
        rw [hbin]
        intro x hx
        rcases List.mem_cons.mp hx with rfl | hx
        · exact hv r (by simp)
        · have hk : ∀ (p : Int) (l : List (Int × Cell)), keys (rectTerms p l) = keys l := by
            intro p l
            induction l generalizing p with
            | nil => rfl
            | cons r l ih => simp only [rectTerms, keys, List.map_cons] at ih ⊢; rw [ih]
          have : x.1 ∈ keys l' := by rw [← hk r.1 l']; exact List.mem_map.mpr ⟨x, hx, rfl⟩
          obtain ⟨y, hy, e⟩ := List.mem_map.mp this
          rw [← e]
          exact hv y (by simp [hy])

end Verif
