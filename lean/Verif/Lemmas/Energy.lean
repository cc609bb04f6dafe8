import Verif.Spec.Normalization
import Verif.Lemmas.Interpolate

/-! Refinement of `_aggregate` for right-labeled power to a sum over intervals between samples. -/

namespace Verif
open Spec

theorem rectContributions_add (m : ℚ) {x y z : Int} (h1 : x ≤ y) (h2 : y ≤ z)
    (d : List (Int × ℚ)) :
    (rectContributions m x z d).sum = (rectContributions m x y d).sum +
        (rectContributions m y z d).sum ∧
      (rectContributions m x z d = [] ↔
        rectContributions m x y d = [] ∧ rectContributions m y z d = []) := by
  induction d with
  | nil => simp [rectContributions]
  | cons r d ih =>
    cases d with
    | nil => simp [rectContributions]
    | cons s d =>
      obtain ⟨a, va⟩ := r
      obtain ⟨b, vb⟩ := s
      simp only [rectContributions, List.sum_append, List.append_eq_nil_iff]
      have hov : overlap a b x z = overlap a b x y + overlap a b y z := by
        unfold overlap; omega
      have hn1 : 0 ≤ overlap a b x y := by unfold overlap; omega
      have hn2 : 0 ≤ overlap a b y z := by unfold overlap; omega
      constructor
      · rw [ih.1, hov]
        by_cases hm : (b : ℚ) - a ≤ m
        · rcases hn1.lt_or_eq with p1 | p1 <;> rcases hn2.lt_or_eq with p2 | p2
          · rw [if_pos ⟨hm, by omega⟩, if_pos ⟨hm, p1⟩, if_pos ⟨hm, p2⟩]
            simp; ring
          · rw [if_pos ⟨hm, by omega⟩, if_pos ⟨hm, p1⟩, if_neg (by omega), ← p2]
            simp; ring
          · rw [if_pos ⟨hm, by omega⟩, if_neg (by omega), if_pos ⟨hm, p2⟩, ← p1]
            simp; ring
          · rw [if_neg (by omega), if_neg (by omega), if_neg (by omega)]
            simp
        · rw [if_neg (fun h => hm h.1), if_neg (fun h => hm h.1), if_neg (fun h => hm h.1)]
          simp
      · rw [ih.2]
        have : (¬((b : ℚ) - a ≤ m ∧ 0 < overlap a b x z)) ↔
            (¬((b : ℚ) - a ≤ m ∧ 0 < overlap a b x y)) ∧
              (¬((b : ℚ) - a ≤ m ∧ 0 < overlap a b y z)) := by
          by_cases hm : (b : ℚ) - a ≤ m
          · simp only [hm, true_and, hov]; omega
          · simp [hm]
        simp only [ite_eq_right_iff, List.cons_ne_nil, imp_false]
        rw [this]
        tauto

theorem rectContributions_self (m : ℚ) (x : Int) (d : List (Int × ℚ)) :
    rectContributions m x x d = [] := by
  induction d with
  | nil => rfl
  | cons r d ih =>
    cases d with
    | nil => rfl
    | cons s d =>
      simp only [rectContributions]
      rw [if_neg (by unfold overlap; omega), List.nil_append]
      exact ih

/-- Value carried at time `u` by the interval that contains it. -/
def rate (m : ℚ) (u : Int) : List (Int × ℚ) → Cell
  | (a, _) :: (b, vb) :: l =>
    if a < u ∧ u ≤ b then (if (b : ℚ) - a ≤ m then some vb else none) else rate m u ((b, vb) :: l)
  | _ => none

theorem rate_none_of_le {m : ℚ} {u : Int} {d : List (Int × ℚ)} (h : ∀ r ∈ d, u ≤ r.1) :
    rate m u d = none := by
  induction d with
  | nil => rfl
  | cons r d ih =>
    cases d with
    | nil => rfl
    | cons s d =>
      obtain ⟨a, va⟩ := r
      obtain ⟨b, vb⟩ := s
      simp only [rate]
      rw [if_neg (by have := h (a, va) (by simp); simp at this; omega)]
      exact ih (fun r hr => h r (List.mem_cons_of_mem _ hr))

theorem contributions_none_of_le {m : ℚ} {x y : Int} {d : List (Int × ℚ)} (h : ∀ r ∈ d, y ≤ r.1) :
    rectContributions m x y d = [] := by
  induction d with
  | nil => rfl
  | cons r d ih =>
    cases d with
    | nil => rfl
    | cons s d =>
      obtain ⟨a, va⟩ := r
      obtain ⟨b, vb⟩ := s
      simp only [rectContributions]
      have := h (a, va) (by simp)
      rw [if_neg (by simp only at this; unfold overlap; omega), List.nil_append]
      exact ih (fun r hr => h r (List.mem_cons_of_mem _ hr))

/-- On an interval without interior samples the contribution is the rate times the width. -/
theorem contributions_local {m : ℚ} {p u : Int} (hpu : p < u) {d : List (Int × ℚ)}
    (hs : StrictSorted (keys d)) (hno : ∀ k ∈ keys d, ¬ (p < k ∧ k < u)) :
    rectContributions m p u d =
      match rate m u d with
      | some v => [v * ((u - p : Int) : ℚ) / nsPerHour]
      | none => [] := by
  induction d with
  | nil => rfl
  | cons r d ih =>
    cases d with
    | nil => rfl
    | cons s d =>
      obtain ⟨a, va⟩ := r
      obtain ⟨b, vb⟩ := s
      have hs' : StrictSorted (keys ((b, vb) :: d)) := (List.pairwise_cons.mp hs).2
      have hno' : ∀ k ∈ keys ((b, vb) :: d), ¬ (p < k ∧ k < u) :=
        fun k hk => hno k (List.mem_cons_of_mem _ hk)
      have hna := hno a (by simp [keys])
      have hnb := hno b (by simp [keys])
      have hab : a < b := (List.pairwise_cons.mp hs).1 b (by simp)
      simp only [rectContributions, rate]
      by_cases hin : a < u ∧ u ≤ b
      · rw [if_pos hin]
        have hge : ∀ r ∈ ((b, vb) :: d), u ≤ r.1 := by
          intro r hr
          rcases List.mem_cons.mp hr with h' | h'
          · rw [h']; exact hin.2
          · have := (List.pairwise_cons.mp hs').1 r.1 (List.mem_map.mpr ⟨r, h', rfl⟩)
            simp only at this; omega
        rw [contributions_none_of_le hge, List.append_nil]
        have hov : overlap a b p u = u - p := by unfold overlap; omega
        by_cases hm : (b : ℚ) - a ≤ m
        · rw [if_pos hm, if_pos ⟨hm, by omega⟩, hov]
        · rw [if_neg hm, if_neg (fun h => hm h.1)]
      · rw [if_neg hin, if_neg (by unfold overlap; omega), List.nil_append]
        exact ih hs' hno'

/-- the bin sum of the model in terms of a list of values -/
theorem sumMinCount1_eq (l : List Cell) : sumMinCount1 l = total (valids l) := by
  unfold sumMinCount1 total
  cases valids l <;> simp

theorem hourNs_eq : hourNs = nsPerHour := by unfold hourNs nsPerHour; norm_num

/-- rows with a given value function -/
def rowsOf (v : Int → Cell) (U : List Int) : List (Int × Cell) := U.map fun u => (u, v u)

/-- terms of the rectangular sum in `(x, y]` -/
theorem rectTerms_window {m : ℚ} {d : List (Int × ℚ)} (hs : StrictSorted (keys d))
    (v : Int → Cell) (U : List Int) (p : Int) (hU : StrictSorted (p :: U))
    (hk : ∀ k ∈ keys d, p < k → k ∈ U) (hv : ∀ u ∈ U, v u = rate m u d) :
    ∀ x y : Int, x ∈ p :: U → y ∈ p :: U → x ≤ y →
      let T := valids (((rectTerms p (rowsOf v U)).filter
        fun r => decide (x < r.1 ∧ r.1 ≤ y)).map Prod.snd)
      T.sum = (rectContributions m x y d).sum ∧ (T = [] ↔ rectContributions m x y d = []) := by
  induction U generalizing p with
  | nil =>
    intro x y hx hy _
    simp only [List.mem_singleton] at hx hy
    subst hx; subst hy
    have := rectContributions_self m y d
    rw [this]
    simp [rowsOf, rectTerms, valids]
  | cons u U ih =>
    intro x y hx hy hxy
    have hU' := (List.pairwise_cons.mp hU).2
    have hpu : p < u := (List.pairwise_cons.mp hU).1 u (by simp)
    have hpU : ∀ w ∈ U, u < w := (List.pairwise_cons.mp hU').1
    have ih' := ih u hU' (fun k hk' hku => by
      rcases List.mem_cons.mp (hk k hk' (by omega)) with h | h
      · omega
      · exact h) (fun w hw => hv w (List.mem_cons_of_mem _ hw))
    have hrows : rectTerms p (rowsOf v (u :: U)) =
        (u, (v u).map fun x => x * (((u : ℚ) - p) / hourNs)) :: rectTerms u (rowsOf v U) := rfl
    rw [hrows]
    -- all later rows are above u
    have habove : ∀ r ∈ rectTerms u (rowsOf v U), u < r.1 := by
      have hkeys : ∀ (q : Int) (l : List (Int × Cell)),
          (rectTerms q l).map Prod.fst = l.map Prod.fst := by
        intro q l
        induction l generalizing q with
        | nil => rfl
        | cons s l ih => obtain ⟨a, b⟩ := s; simp [rectTerms, ih]
      intro r hr
      have : r.1 ∈ (rectTerms u (rowsOf v U)).map Prod.fst := List.mem_map.mpr ⟨r, hr, rfl⟩
      rw [hkeys] at this
      simp only [rowsOf, List.map_map, List.mem_map, Function.comp_apply] at this
      obtain ⟨w, hw, hw'⟩ := this
      rw [← hw']; exact hpU w hw
    rcases List.mem_cons.mp hx with rfl | hx'
    · rcases List.mem_cons.mp hy with rfl | hy'
      · -- empty window
        have hf : ((u, (v u).map fun x => x * (((u : ℚ) - y) / hourNs)) ::
            rectTerms u (rowsOf v U)).filter (fun r => decide (y < r.1 ∧ r.1 ≤ y)) = [] :=
          List.filter_eq_nil_iff.mpr fun r _ => by simp
        have hc := rectContributions_self m y d
        rw [hf, hc]; simp [valids]
      · -- the window starts at p
        have huy : u ≤ y := by
          rcases List.mem_cons.mp hy' with rfl | h
          · exact le_refl _
          · exact (hpU y h).le
        have hadd := rectContributions_add m hpu.le huy d
        have hloc := contributions_local (m := m) hpu hs (fun k hk' hlt => by
          rcases List.mem_cons.mp (hk k hk' hlt.1) with h | h
          · omega
          · have := hpU k h; omega)
        rw [← hv u (by simp)] at hloc
        have ih2 := ih' u y (by simp) hy' huy
        have hf : (rectTerms u (rowsOf v U)).filter (fun r => decide (x < r.1 ∧ r.1 ≤ y)) =
            (rectTerms u (rowsOf v U)).filter (fun r => decide (u < r.1 ∧ r.1 ≤ y)) := by
          apply List.filter_congr
          intro r hr
          have := habove r hr
          simp only [decide_eq_decide]; omega
        rw [List.filter_cons, if_pos (by simp; omega), hf]
        simp only [List.map_cons]
        cases hvu : v u with
        | none =>
          rw [hvu] at hloc
          rw [hloc] at hadd
          simp only [valids, Option.map_none, List.filterMap_cons, id_eq] at ih2 ⊢
          rw [hadd.1, hadd.2]
          simpa using ih2
        | some w =>
          rw [hvu] at hloc
          rw [hloc] at hadd
          simp only [valids, Option.map_some, List.filterMap_cons, id_eq] at ih2 ⊢
          rw [hadd.1, hadd.2, List.sum_cons, ih2.1]
          constructor
          · rw [hourNs_eq]; simp; ring
          · simp
    · -- the window starts later
      have hux : u ≤ x := by
        rcases List.mem_cons.mp hx' with rfl | h
        · exact le_refl _
        · exact (hpU x h).le
      have hy' : y ∈ u :: U := by
        rcases List.mem_cons.mp hy with rfl | h
        · omega
        · exact h
      rw [List.filter_cons, if_neg (by simp; omega)]
      exact ih' x y hx' hy' hxy

/-- `bfill` and gap mask of the model give the `rate`. -/
theorem fill_eq_rate {m : ℚ} {a u : Int} {va : ℚ} (l : List (Int × ℚ)) (hau : a < u)
    (hs : StrictSorted (keys ((a, va) :: l))) :
    (if cellCmp (fun x y => decide (x > y)) (firstLabelGe (gapsFrom a (keys l)) u) (some m)
      then none else firstSomeGe (toSeries l) u) = rate m u ((a, va) :: l) := by
  induction l generalizing a va with
  | nil => simp [gapsFrom, firstLabelGe, toSeries, firstSomeGe, rate, keys]
  | cons s l ih =>
    obtain ⟨b, vb⟩ := s
    have hs' := (List.pairwise_cons.mp hs).2
    simp only [keys, List.map_cons, gapsFrom, firstLabelGe, toSeries, firstSomeGe, rate]
    by_cases hub : u ≤ b
    · simp only [if_pos hub, if_pos (And.intro hau hub)]
      by_cases hm : (b : ℚ) - a ≤ m
      · rw [if_pos hm, if_neg]
        simp only [cellCmp, gt_iff_lt, decide_eq_true_eq, not_lt]; exact hm
      · rw [if_neg hm, if_pos]
        simp only [cellCmp, gt_iff_lt, decide_eq_true_eq]; exact not_le.mp hm
    · simp only [if_neg hub, if_neg (fun h : a < u ∧ u ≤ b => hub h.2)]
      exact ih (by omega) hs'

theorem rightLabels_cons {t0 tn f : Int} (hf : 0 < f) (h : t0 ≤ tn) :
    ∃ rest, rightLabels t0 tn f = t0 :: rest := by
  unfold rightLabels
  have : 0 ≤ (tn - t0 + f - 1) / f := Int.ediv_nonneg (by omega) hf.le
  obtain ⟨n, hn⟩ : ∃ n : Nat, ((tn - t0 + f - 1) / f + 1).toNat = n + 1 :=
    ⟨((tn - t0 + f - 1) / f).toNat, by omega⟩
  rw [hn, List.range_succ_eq_map]
  exact ⟨_, by simp; rfl⟩

theorem rightLabels_tail {t0 tn f L : Int} (hL : L ∈ (rightLabels t0 tn f).tail) :
    L ∈ rightLabels t0 tn f ∧ L - f ∈ rightLabels t0 tn f := by
  refine ⟨List.mem_of_mem_tail hL, ?_⟩
  unfold rightLabels at hL ⊢
  generalize ((tn - t0 + f - 1) / f + 1).toNat = n at hL
  cases n with
  | zero => simp at hL
  | succ n =>
    rw [List.range_succ_eq_map] at hL
    simp only [List.map_cons, List.map_map, List.tail_cons, List.mem_map, List.mem_range,
      Function.comp_apply] at hL
    obtain ⟨k, hk, rfl⟩ := hL
    refine List.mem_map.mpr ⟨k, List.mem_range.mpr (by omega), ?_⟩
    push_cast; ring

/-- the result of `_aggregate` for right-labeled power -/
theorem aggregate_right {ts : Series} (hs : StrictSorted (keys ts)) {f : Int} (hf : 0 < f)
    (m : ℚ) {t0 tn : Int} (h0 : (keys ts).head? = some t0) (hn : (keys ts).getLast? = some tn)
    (hd : dropna ts ≠ []) :
    aggregate ts f m .rightLabeled = .ok ((rightLabels t0 tn f).tail.map fun L =>
      (L, total (rectContributions m (L - f) L (dropna ts)))) := by
  have hds := dropna_sorted hs
  have hdsub : ∀ k ∈ keys (dropna ts), k ∈ keys ts := fun k hk => keys_dropna_sub hk
  unfold aggregate
  cases hk : ts.map Prod.fst with
  | nil => rw [show keys ts = [] from hk] at h0; simp at h0
  | cons t0' trest =>
    have hk' : keys ts = t0' :: trest := hk
    rw [hk'] at h0 hn hdsub
    simp only [List.head?_cons, Option.some.injEq] at h0
    subst h0
    have hlast : (t0' :: trest).getLastD t0' = tn := by
      rw [List.getLastD_eq_getLast?, hn]; rfl
    rw [hk'] at hs
    have h0n : t0' ≤ tn := by
      have := List.mem_of_getLast? hn
      rcases List.mem_cons.mp this with h | h
      · omega
      · exact ((List.pairwise_cons.mp hs).1 tn h).le
    dsimp only
    rw [hlast]
    obtain ⟨rest, hrest⟩ := rightLabels_cons hf h0n
    generalize hlab : rightLabels t0' tn f = labels at hrest
    have htail : ∀ L ∈ labels.tail, L ∈ labels ∧ L - f ∈ labels := by
      rw [← hlab]; exact fun L hL => rightLabels_tail hL
    have hlabge : ∀ L ∈ labels, t0' ≤ L := by
      rw [← hlab]
      intro L hL
      obtain ⟨k, _, rfl⟩ := List.mem_map.mp hL
      have : 0 ≤ (k : Int) * f := mul_nonneg (Int.natCast_nonneg k) hf.le
      omega
    have hUs := sortedUnion_sorted (t0' :: trest ++ labels)
    have hUm : ∀ u, u ∈ sortedUnion (t0' :: trest ++ labels) ↔ u ∈ t0' :: trest ∨ u ∈ labels := by
      intro u; rw [mem_sortedUnion, List.mem_append]
    generalize sortedUnion (t0' :: trest ++ labels) = U at hUs hUm
    have hUge : ∀ u ∈ U, t0' ≤ u := by
      intro u hu
      rcases (hUm u).mp hu with h | h
      · rcases List.mem_cons.mp h with h' | h'
        · omega
        · exact ((List.pairwise_cons.mp hs).1 u h').le
      · exact hlabge u h
    have hUhead : ∃ V, U = t0' :: V := by
      cases U with
      | nil => have := (hUm t0').mpr (Or.inl (by simp)); simp at this
      | cons u V =>
        have h1 := hUge u (by simp)
        have h2 : u ≤ t0' := by
          rcases List.mem_cons.mp ((hUm t0').mpr (Or.inl (by simp))) with h | h
          · omega
          · exact ((List.pairwise_cons.mp hUs).1 t0' h).le
        exact ⟨V, by rw [le_antisymm h2 h1]⟩
    obtain ⟨V, hV⟩ := hUhead
    generalize dropna ts = d at *
    cases d with
    | nil => exact absurd rfl hd
    | cons r l =>
      obtain ⟨d0, v0⟩ := r
      dsimp only
      -- rows of the filled column
      have hbf : bfillK (reindexK (toSeries ((d0, v0) :: l)) U) =
          U.map fun u => (u, firstSomeGe (toSeries ((d0, v0) :: l)) u) := by
        have hkR : keys (reindexK (toSeries ((d0, v0) :: l)) U) = U := keys_reindexK _ _
        rw [bfillK_eq (by rw [hkR]; exact hUs)]
        have hfs : ∀ u, firstSomeGe (reindexK (toSeries ((d0, v0) :: l)) U) u =
            firstSomeGe (toSeries ((d0, v0) :: l)) u := by
          intro u
          apply firstSomeGe_congr (by rw [hkR]; exact hUs) (by rw [keys_toSeries]; exact hds)
          intro w a
          apply mem_reindexK_some
          · rw [keys_toSeries]; exact hds.nodup
          · intro z hz; rw [keys_toSeries] at hz; exact (hUm z).mpr (Or.inl (hdsub z hz))
        simp only [hfs]
        conv_rhs => rw [← hkR]
        simp [keys]
      rw [hbf]
      set v : Int → Cell := fun u =>
        if (cellCmp (fun a b => decide (a > b))
            (firstLabelGe (gaps (List.map Prod.fst ((d0, v0) :: l))) u) (some m) ||
          (decide (d0 ≠ U.headD d0) && decide (u ≤ d0))) = true then none
        else firstSomeGe (toSeries ((d0, v0) :: l)) u with hvdef
      have hrows : ((U.map fun u => (u, firstSomeGe (toSeries ((d0, v0) :: l)) u)).zip
          ((reindexBfill (gaps (List.map Prod.fst ((d0, v0) :: l))) U).map fun r =>
            cellCmp (fun a b => decide (a > b)) r.2 (some m) ||
              (decide (d0 ≠ U.headD d0) && decide (r.1 ≤ d0)))).map
            (fun x => if x.2 = true then (x.1.1, none) else x.1) = rowsOf v U := by
        generalize U.headD d0 = hd0 at hvdef ⊢
        clear_value v
        subst hvdef
        clear hUs hUm hUge hV hbf
        induction U with
        | nil => rfl
        | cons u U ih =>
          simp only [reindexBfill, List.map_cons, List.zip_cons_cons, rowsOf] at ih ⊢
          rw [ih]
          congr 1
          split <;> rfl
      rw [hrows, hV]
      have hvr : ∀ u ∈ V, v u = rate m u ((d0, v0) :: l) := by
        intro u hu
        have hu0 : t0' < u := by
          rw [hV] at hUs; exact (List.pairwise_cons.mp hUs).1 u hu
        have hge : ∀ r ∈ ((d0, v0) :: l), d0 ≤ r.1 := by
          intro r hr
          rcases List.mem_cons.mp hr with h | h
          · rw [h]
          · exact ((List.pairwise_cons.mp hds).1 r.1 (List.mem_map.mpr ⟨r, h, rfl⟩)).le
        have hhead : U.headD d0 = t0' := by rw [hV]; rfl
        rw [hvdef]
        dsimp only
        rw [hhead]
        by_cases hud : u ≤ d0
        · rw [rate_none_of_le (fun r hr => hud.trans (hge r hr)), if_pos]
          simp [hud]; right; omega
        · have hud' : d0 < u := by omega
          rw [← fill_eq_rate l hud' hds]
          simp only [gaps, List.map_cons, firstLabelGe, toSeries, firstSomeGe]
          rw [if_neg hud, if_neg hud]
          simp [hud]
      have hwin := rectTerms_window hds v V t0' (by rw [← hV]; exact hUs)
        (fun k hk' hlt => by
          have := (hUm k).mpr (Or.inl (hdsub k hk'))
          rw [hV] at this
          rcases List.mem_cons.mp this with h | h
          · omega
          · exact h) hvr
      simp only [rowsOf, List.map_cons]
      congr 1
      rw [← List.map_tail]
      apply List.map_congr_left
      intro L hL
      obtain ⟨hL1, hL2⟩ := htail L hL
      congr 1
      rw [sumMinCount1_eq]
      have hfilt : (((t0', (none : Cell)) :: rectTerms t0' (V.map fun u => (u, v u))).filter
          fun r => decide (L - f < r.1 ∧ r.1 ≤ L)).map Prod.snd = 
          ((rectTerms t0' (rowsOf v V)).filter
          fun r => decide (L - f < r.1 ∧ r.1 ≤ L)).map Prod.snd := by
        rw [List.filter_cons, if_neg]
        · rfl
        · have := hlabge _ hL2
          simp; omega
      rw [hfilt]
      obtain ⟨h1, h2⟩ := hwin (L - f) L
        (by rw [← hV]; exact (hUm _).mpr (Or.inr hL2))
        (by rw [← hV]; exact (hUm _).mpr (Or.inr hL1)) (by omega)
      unfold total
      by_cases hT : rectContributions m (L - f) L ((d0, v0) :: l) = []
      · rw [if_pos hT, if_pos (h2.mpr hT)]
      · rw [if_neg hT, if_neg (fun h => hT (h2.mp h)), h1]

end Verif
