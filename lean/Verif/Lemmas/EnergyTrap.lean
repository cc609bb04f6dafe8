import Verif.Lemmas.Energy

/-! Refinement of `_aggregate` for instantaneous power without gaps. -/

namespace Verif
open Spec

/-- broken line through the samples, constant after the last one -/
def pl (u : Int) : List (Int × ℚ) → ℚ
  | [] => 0
  | [(_, va)] => va
  | (a, va) :: (b, vb) :: l => if u ≤ b then lerpAt a va b vb u else pl u ((b, vb) :: l)

theorem lerpAt_left (a : Int) (va : ℚ) (b : Int) (vb : ℚ) : lerpAt a va b vb a = va := by
  unfold lerpAt; simp

theorem lerpAt_right {a b : Int} (h : a < b) (va vb : ℚ) : lerpAt a va b vb b = vb := by
  have : (b : ℚ) - a ≠ 0 := by
    have : (a : ℚ) < b := by exact_mod_cast h
    linarith
  unfold lerpAt; rw [div_self this]; ring

theorem pl_head (a : Int) (va : ℚ) (l : List (Int × ℚ)) (hs : StrictSorted (keys ((a, va) :: l))) :
    pl a ((a, va) :: l) = va := by
  cases l with
  | nil => rfl
  | cons s l =>
    obtain ⟨b, vb⟩ := s
    have hab : a < b := (List.pairwise_cons.mp hs).1 b (by simp)
    simp only [pl]
    rw [if_pos hab.le, lerpAt_left]

theorem pl_at {d : List (Int × ℚ)} (hs : StrictSorted (keys d)) {u : Int} {v : ℚ}
    (h : (u, v) ∈ d) : pl u d = v := by
  induction d with
  | nil => simp at h
  | cons r d ih =>
    obtain ⟨a, va⟩ := r
    rcases List.mem_cons.mp h with h' | h'
    · cases h'; exact pl_head _ _ _ hs
    · have hs' := (List.pairwise_cons.mp hs).2
      cases d with
      | nil => simp at h'
      | cons s d =>
        obtain ⟨b, vb⟩ := s
        have hab : a < b := (List.pairwise_cons.mp hs).1 b (by simp)
        have ih' := ih hs' h'
        simp only [pl]
        split
        · next hub =>
          rcases List.mem_cons.mp h' with h2 | h2
          · cases h2; exact lerpAt_right hab _ _
          · have := (List.pairwise_cons.mp hs').1 u (List.mem_map.mpr ⟨_, h2, rfl⟩)
            simp only at this; omega
        · exact ih'

theorem combine_pl {d : List (Int × ℚ)} (hs : StrictSorted (keys d)) {u : Int}
    (hu : u ∉ keys d) {a : Int} {va : ℚ} {l : List (Int × ℚ)} (hd : d = (a, va) :: l)
    (hau : a < u) : combine (prevRow d u) (nextRow d u) u = some (pl u d) := by
  induction l generalizing d a va with
  | nil =>
    subst hd
    simp [prevRow, nextRow, List.filter_cons, hau, show ¬ u < a by omega, combine, pl]
  | cons s l ih =>
    obtain ⟨b, vb⟩ := s
    subst hd
    have hab : a < b := (List.pairwise_cons.mp hs).1 b (by simp)
    by_cases hub : u < b
    · obtain ⟨h1, h2, _⟩ := prev_next_of_adjacent hs ⟨[], l, rfl⟩ hau hub
      rw [h1, h2]
      simp only [combine, pl]
      rw [if_pos hub.le]
    · have hub' : b < u := by
        have : u ≠ b := fun e => hu (by simp [keys, e])
        omega
      have ih' := ih (List.pairwise_cons.mp hs).2 (fun h => hu (List.mem_cons_of_mem _ h)) rfl hub'
      have hn : nextRow ((a, va) :: (b, vb) :: l) u = nextRow ((b, vb) :: l) u := by
        unfold nextRow
        rw [List.filter_cons, if_neg (by simp; omega)]
      have hp : prevRow ((a, va) :: (b, vb) :: l) u = prevRow ((b, vb) :: l) u := by
        unfold prevRow
        rw [List.filter_cons, if_pos (by simpa using hau)]
        have : ((b, vb) :: l).filter (fun r => decide (r.1 < u)) ≠ [] := by
          rw [List.filter_cons, if_pos (by simpa using hub')]; simp
        rw [List.getLast?_cons]
        cases hl : (((b, vb) :: l).filter (fun r => decide (r.1 < u))).getLast? with
        | none => exact absurd (List.getLast?_eq_none_iff.mp hl) this
        | some x => rfl
      rw [hn, hp, ih']
      simp only [pl]
      rw [if_neg (by omega)]

theorem nsPerHour_pos : (0 : ℚ) < nsPerHour := by unfold nsPerHour; norm_num

/-- antiderivative of one segment -/
def segA (a : Int) (va : ℚ) (b : Int) (vb : ℚ) (s : Int) : ℚ :=
  let c := max a (min b s)
  (va + lerpAt a va b vb c) / 2 * ((c : ℚ) - a) / nsPerHour

/-- antiderivative of the tail -/
def tailA (a : Int) (va : ℚ) (s : Int) : ℚ := va * ((max a s : Int) - a : ℚ) / nsPerHour

def plA (s : Int) : List (Int × ℚ) → ℚ
  | [] => 0
  | [(a, va)] => tailA a va s
  | (a, va) :: (b, vb) :: l => segA a va b vb s + plA s ((b, vb) :: l)

theorem seg_eq {a b : Int} (hab : a < b) (va vb : ℚ) {x y : Int} (hxy : x ≤ y) :
    (if max a x < min b y
      then (lerpAt a va b vb (max a x) + lerpAt a va b vb (min b y)) / 2 *
        (((min b y : Int) : ℚ) - (max a x : Int)) / nsPerHour
      else 0) = segA a va b vb y - segA a va b vb x := by
  have hne : (b : ℚ) - a ≠ 0 := by
    have : (a : ℚ) < b := by exact_mod_cast hab
    linarith
  have hh := nsPerHour_pos.ne'
  unfold segA
  dsimp only
  by_cases h : max a x < min b y
  · rw [if_pos h]
    have e1 : max a (min b y) = min b y := by omega
    have e2 : max a (min b x) = max a x := by omega
    rw [e1, e2]
    generalize min b y = q
    generalize max a x = p
    unfold lerpAt
    field_simp
    ring
  · rw [if_neg h]
    have e1 : max a (min b y) = max a (min b x) := by omega
    rw [e1]; ring

theorem trapIntegral_eq {d : List (Int × ℚ)} (hs : StrictSorted (keys d)) {x y : Int}
    (hxy : x ≤ y) : trapIntegral x y d = plA y d - plA x d := by
  induction d with
  | nil => simp [trapIntegral, plA]
  | cons r d ih =>
    obtain ⟨a, va⟩ := r
    cases d with
    | nil =>
      simp only [trapIntegral, plA, tailA]
      have : (max 0 (y - max a x) : Int) = max a y - max a x := by omega
      rw [this]; push_cast; ring
    | cons s d =>
      obtain ⟨b, vb⟩ := s
      have hab : a < b := (List.pairwise_cons.mp hs).1 b (by simp)
      have ih' := ih (List.pairwise_cons.mp hs).2
      simp only [trapIntegral, plA]
      rw [ih']
      have hl : ∀ s : Int, va + (vb - va) * ((s : ℚ) - a) / ((b : ℚ) - a) = lerpAt a va b vb s := by
        intro s; unfold lerpAt; ring
      simp only [hl]
      rw [seg_eq hab va vb hxy]; ring

theorem trapIntegral_add {d : List (Int × ℚ)} (hs : StrictSorted (keys d)) {x y z : Int}
    (h1 : x ≤ y) (h2 : y ≤ z) :
    trapIntegral x z d = trapIntegral x y d + trapIntegral y z d := by
  rw [trapIntegral_eq hs h1, trapIntegral_eq hs h2, trapIntegral_eq hs (h1.trans h2)]; ring

theorem plA_le {d : List (Int × ℚ)} {x : Int} (h : ∀ r ∈ d, x ≤ r.1)
    (hs : StrictSorted (keys d)) : plA x d = 0 := by
  induction d with
  | nil => rfl
  | cons r d ih =>
    obtain ⟨a, va⟩ := r
    have hxa : x ≤ a := h (a, va) (by simp)
    cases d with
    | nil => simp only [plA, tailA]; rw [max_eq_left hxa]; simp
    | cons s d =>
      obtain ⟨b, vb⟩ := s
      have hab : a < b := (List.pairwise_cons.mp hs).1 b (by simp)
      simp only [plA]
      rw [ih (fun r hr => h r (List.mem_cons_of_mem _ hr)) (List.pairwise_cons.mp hs).2]
      unfold segA
      have : max a (min b x) = a := by omega
      rw [this]; simp

/-- trapezoid between two points without interior samples -/
theorem trap_local {d : List (Int × ℚ)} (hs : StrictSorted (keys d)) {p u : Int} (hpu : p < u)
    (hno : ∀ k ∈ keys d, ¬ (p < k ∧ k < u)) {a : Int} {va : ℚ} {l : List (Int × ℚ)}
    (hd : d = (a, va) :: l) (hap : a ≤ p) :
    trapIntegral p u d = (pl u d + pl p d) / 2 * (((u : ℚ) - p) / nsPerHour) := by
  induction l generalizing d a va with
  | nil =>
    subst hd
    simp only [trapIntegral, pl]
    have : (max 0 (u - max a p) : Int) = u - p := by omega
    rw [this]; push_cast; ring
  | cons s l ih =>
    obtain ⟨b, vb⟩ := s
    subst hd
    have hs' := (List.pairwise_cons.mp hs).2
    have hab : a < b := (List.pairwise_cons.mp hs).1 b (by simp)
    have hnb := hno b (by simp [keys])
    by_cases hub : u ≤ b
    · rw [trapIntegral_eq hs hpu.le]
      simp only [plA, pl]
      have hge : ∀ r ∈ ((b, vb) :: l), b ≤ r.1 := by
        intro r hr
        rcases List.mem_cons.mp hr with h' | h'
        · rw [h']
        · exact ((List.pairwise_cons.mp hs').1 r.1 (List.mem_map.mpr ⟨r, h', rfl⟩)).le
      rw [plA_le (fun r hr => hub.trans (hge r hr)) hs',
        plA_le (fun r hr => (by have := hge r hr; omega)) hs', if_pos hub, if_pos (by omega)]
      have hseg := seg_eq hab va vb hpu.le
      rw [if_pos (by omega)] at hseg
      have e1 : max a p = p := by omega
      have e2 : min b u = u := by omega
      rw [e1, e2] at hseg
      rw [add_zero, add_zero, ← hseg]; ring
    · have hbp : b ≤ p := by omega
      have ih' := ih hs' (fun k hk => hno k (List.mem_cons_of_mem _ hk)) rfl hbp
      rw [show trapIntegral p u ((a, va) :: (b, vb) :: l) = trapIntegral p u ((b, vb) :: l) by
        simp only [trapIntegral]; rw [if_neg (by omega), zero_add], ih']
      have e1 : pl u ((a, va) :: (b, vb) :: l) = pl u ((b, vb) :: l) := by
        simp only [pl]; rw [if_neg hub]
      have e2 : pl p ((a, va) :: (b, vb) :: l) = pl p ((b, vb) :: l) := by
        simp only [pl]
        split
        · next h =>
          have : p = b := by omega
          subst this
          rw [lerpAt_right hab, pl_head _ _ _ hs']
        · rfl
      rw [e1, e2]

theorem keys_trapTerms (q : Int × Cell) (l : List (Int × Cell)) :
    (trapTerms q l).map Prod.fst = l.map Prod.fst := by
  induction l generalizing q with
  | nil => cases q; rfl
  | cons s l ih => obtain ⟨a, b⟩ := s; obtain ⟨c, e⟩ := q; simp [trapTerms, ih]

/-- terms of the trapezoidal sum in `(x, y]` -/
theorem trapTerms_window {d : List (Int × ℚ)} (hs : StrictSorted (keys d)) {a : Int} {va : ℚ}
    {l : List (Int × ℚ)} (hd : d = (a, va) :: l)
    (v : Int → Cell) (U : List Int) (p : Int) (hap : a ≤ p) (hU : StrictSorted (p :: U))
    (hk : ∀ k ∈ keys d, p < k → k ∈ U) (hv : ∀ u ∈ p :: U, v u = some (pl u d)) :
    ∀ x y : Int, x ∈ p :: U → y ∈ p :: U → x ≤ y →
      let T := valids (((trapTerms (p, v p) (rowsOf v U)).filter
        fun r => decide (x < r.1 ∧ r.1 ≤ y)).map Prod.snd)
      T.sum = trapIntegral x y d ∧ (x < y → T ≠ []) := by
  induction U generalizing p with
  | nil =>
    intro x y hx hy _
    simp only [List.mem_singleton] at hx hy
    subst hx; subst hy
    rw [trapIntegral_eq hs (le_refl _)]
    simp [rowsOf, trapTerms, valids]
  | cons u U ih =>
    intro x y hx hy hxy
    have hU' := (List.pairwise_cons.mp hU).2
    have hpu : p < u := (List.pairwise_cons.mp hU).1 u (by simp)
    have hpU : ∀ w ∈ U, u < w := (List.pairwise_cons.mp hU').1
    have ih' := ih u (by omega) hU' (fun k hk' hku => by
      rcases List.mem_cons.mp (hk k hk' (by omega)) with h | h
      · omega
      · exact h) (fun w hw => hv w (List.mem_cons_of_mem _ hw))
    have hrows : trapTerms (p, v p) (rowsOf v (u :: U)) =
        (u, cellOp (fun x y => (x + y) / 2 * (((u : ℚ) - p) / hourNs)) (v u) (v p)) ::
          trapTerms (u, v u) (rowsOf v U) := rfl
    have habove : ∀ r ∈ trapTerms (u, v u) (rowsOf v U), u < r.1 := by
      intro r hr
      have : r.1 ∈ (trapTerms (u, v u) (rowsOf v U)).map Prod.fst := List.mem_map.mpr ⟨r, hr, rfl⟩
      rw [keys_trapTerms] at this
      simp only [rowsOf, List.map_map, List.mem_map, Function.comp_apply] at this
      obtain ⟨w, hw, hw'⟩ := this
      rw [← hw']; exact hpU w hw
    have hterm : cellOp (fun x y => (x + y) / 2 * (((u : ℚ) - p) / hourNs)) (v u) (v p) =
        some (trapIntegral p u d) := by
      rw [hv u (by simp), hv p (by simp), trap_local hs hpu (fun k hk' hlt => by
          rcases List.mem_cons.mp (hk k hk' hlt.1) with h | h
          · omega
          · have := hpU k h; omega) hd hap, hourNs_eq]
      rfl
    rw [hrows, hterm]
    rcases List.mem_cons.mp hx with rfl | hx'
    · rcases List.mem_cons.mp hy with rfl | hy'
      · have hf : ((u, some (trapIntegral y u d)) ::
            trapTerms (u, v u) (rowsOf v U)).filter (fun r => decide (y < r.1 ∧ r.1 ≤ y)) = [] :=
          List.filter_eq_nil_iff.mpr fun r _ => by simp
        rw [hf, trapIntegral_eq hs (le_refl _)]; simp [valids]
      · have huy : u ≤ y := by
          rcases List.mem_cons.mp hy' with rfl | h
          · exact le_refl _
          · exact (hpU y h).le
        have hadd := trapIntegral_add hs hpu.le huy
        have ih2 := ih' u y (by simp) hy' huy
        have hf : (trapTerms (u, v u) (rowsOf v U)).filter (fun r => decide (x < r.1 ∧ r.1 ≤ y)) =
            (trapTerms (u, v u) (rowsOf v U)).filter (fun r => decide (u < r.1 ∧ r.1 ≤ y)) := by
          apply List.filter_congr
          intro r hr
          have := habove r hr
          simp only [decide_eq_decide]; omega
        rw [List.filter_cons, if_pos (by simp; omega), hf]
        simp only [List.map_cons, valids, List.filterMap_cons, id_eq] at ih2 ⊢
        rw [hadd, List.sum_cons, ih2.1]
        exact ⟨rfl, fun _ => by simp⟩
    · have hux : u ≤ x := by
        rcases List.mem_cons.mp hx' with rfl | h
        · exact le_refl _
        · exact (hpU x h).le
      have hy' : y ∈ u :: U := by
        rcases List.mem_cons.mp hy with rfl | h
        · omega
        · exact h
      rw [List.filter_cons, if_neg (by simp; omega)]
      exact ih' x y hx' hy' hxy

theorem firstLabelGe_gaps_le {m : ℚ} {l : List Int} {u : Int} {g : ℚ}
    (hg : ∀ a b, Adjacent l a b → (b : ℚ) - a ≤ m)
    (h : firstLabelGe (gaps l) u = some g) : g ≤ m := by
  have hmem : ∀ (K : List (Int × Cell)), firstLabelGe K u = some g → ∃ t, (t, some g) ∈ K := by
    intro K
    induction K with
    | nil => intro h; simp [firstLabelGe] at h
    | cons r K ih =>
      obtain ⟨t, x⟩ := r
      intro h
      simp only [firstLabelGe] at h
      split at h
      · exact ⟨t, by rw [h]; simp⟩
      · obtain ⟨t', ht⟩ := ih h
        exact ⟨t', List.mem_cons_of_mem _ ht⟩
  obtain ⟨t, ht⟩ := hmem _ h
  obtain ⟨a, ha, rfl⟩ := mem_gaps_some.mp ht
  exact hg a t ha

/-- the result of `_aggregate` for instantaneous power without gaps or leading NaNs -/
theorem aggregate_inst {ts : Series} (hs : StrictSorted (keys ts)) {f : Int} (hf : 0 < f)
    (m : ℚ) {t0 tn : Int} (h0 : (keys ts).head? = some t0) (hn : (keys ts).getLast? = some tn)
    (hd0 : (keys (dropna ts)).head? = some t0)
    (hgap : ∀ a b, Adjacent (keys (dropna ts)) a b → (b : ℚ) - a ≤ m) :
    aggregate ts f m .instantaneous = .ok ((rightLabels t0 tn f).tail.map fun L =>
      (L, some (trapIntegral (L - f) L (dropna ts)))) := by
  have hds := dropna_sorted hs
  have hdsub : ∀ k ∈ keys (dropna ts), k ∈ keys ts := fun k hk => keys_dropna_sub hk
  unfold aggregate
  cases hk : ts.map Prod.fst with
  | nil => rw [show keys ts = [] from hk] at h0; simp at h0
  | cons t0' trest =>
    have hk' : keys ts = t0' :: trest := hk
    rw [hk'] at h0 hn hdsub
    simp only [List.head?_cons, Option.some.injEq] at h0
    subst h0
    have hlast : (t0' :: trest).getLastD t0' = tn := by
      rw [List.getLastD_eq_getLast?, hn]; rfl
    rw [hk'] at hs
    have h0n : t0' ≤ tn := by
      have := List.mem_of_getLast? hn
      rcases List.mem_cons.mp this with h | h
      · omega
      · exact ((List.pairwise_cons.mp hs).1 tn h).le
    dsimp only
    rw [hlast]
    generalize hlab : rightLabels t0' tn f = labels
    have htail : ∀ L ∈ labels.tail, L ∈ labels ∧ L - f ∈ labels := by
      rw [← hlab]; exact fun L hL => rightLabels_tail hL
    have hlabge : ∀ L ∈ labels, t0' ≤ L := by
      rw [← hlab]
      intro L hL
      obtain ⟨k, _, rfl⟩ := List.mem_map.mp hL
      have : 0 ≤ (k : Int) * f := mul_nonneg (Int.natCast_nonneg k) hf.le
      omega
    have hUs := sortedUnion_sorted (t0' :: trest ++ labels)
    have hUm : ∀ u, u ∈ sortedUnion (t0' :: trest ++ labels) ↔ u ∈ t0' :: trest ∨ u ∈ labels := by
      intro u; rw [mem_sortedUnion, List.mem_append]
    generalize sortedUnion (t0' :: trest ++ labels) = U at hUs hUm
    have hUge : ∀ u ∈ U, t0' ≤ u := by
      intro u hu
      rcases (hUm u).mp hu with h | h
      · rcases List.mem_cons.mp h with h' | h'
        · omega
        · exact ((List.pairwise_cons.mp hs).1 u h').le
      · exact hlabge u h
    have hUhead : ∃ V, U = t0' :: V := by
      cases U with
      | nil => have := (hUm t0').mpr (Or.inl (by simp)); simp at this
      | cons u V =>
        have h1 := hUge u (by simp)
        have h2 : u ≤ t0' := by
          rcases List.mem_cons.mp ((hUm t0').mpr (Or.inl (by simp))) with h | h
          · omega
          · exact ((List.pairwise_cons.mp hUs).1 t0' h).le
        exact ⟨V, by rw [le_antisymm h2 h1]⟩
    obtain ⟨V, hV⟩ := hUhead
    generalize dropna ts = d at *
    cases d with
    | nil => simp at hd0
    | cons r l =>
      obtain ⟨d0, v0⟩ := r
      simp only [keys, List.map_cons, List.head?_cons, Option.some.injEq] at hd0
      subst hd0
      dsimp only
      generalize hDD : (d0, v0) :: l = D at *
      -- interpolated column
      have hkR : keys (reindexK (toSeries D) U) = U := keys_reindexK _ _
      have hdR : dropna (reindexK (toSeries D) U) = D := by
        apply eq_of_sorted_mem (dropna_sorted (by rw [hkR]; exact hUs)) hds
        rintro ⟨u, w⟩
        rw [mem_dropna, mem_reindexK_some, mem_toSeries]
        · rw [keys_toSeries]; exact hds.nodup
        · intro z hz; rw [keys_toSeries] at hz; exact (hUm z).mpr (Or.inl (hdsub z hz))
      have hint : interpFrom none (reindexK (toSeries D) U) = U.map fun u => (u, some (pl u D)) := by
        apply List.ext_getElem
        · have := congrArg List.length (keys_interpFrom none (reindexK (toSeries D) U))
          simp only [keys, List.length_map] at this
          rw [this]
          simp [reindexK]
        · intro i hi1 hi2
          have hkI : keys (interpFrom none (reindexK (toSeries D) U)) = U := by
            rw [keys_interpFrom, hkR]
          have hiU : i < U.length := by simpa using hi2
          have hfst : ((interpFrom none (reindexK (toSeries D) U))[i]).1 = U[i] := by
            have : (keys (interpFrom none (reindexK (toSeries D) U)))[i]'(by simpa using hi1) = U[i] := by
              simp only [hkI]
            simpa [keys] using this
          have hmem := List.getElem_mem hi1
          have hlook : lookupK (interpFrom none (reindexK (toSeries D) U)) U[i] =
              ((interpFrom none (reindexK (toSeries D) U))[i]).2 := by
            apply lookupK_of_mem
            · rw [hkI]; exact hUs.nodup
            · rw [← hfst]; exact hmem
          have hrow : (U[i], lookupK (toSeries D) U[i]) ∈ reindexK (toSeries D) U :=
            List.mem_map.mpr ⟨U[i], List.getElem_mem hiU, rfl⟩
          rw [lookup_interpFrom (by rw [hkR]; exact hUs) none hrow, hdR] at hlook
          have hval : (lookupK (toSeries D) U[i]).or (combine ((prevRow D U[i]).or none)
              (nextRow D U[i]) U[i]) = some (pl U[i] D) := by
            cases hl : lookupK (toSeries D) U[i] with
            | some w =>
              rw [pl_at hds ((lookup_toSeries_some hds).mp hl)]; rfl
            | none =>
              have hnk := lookup_toSeries_none.mp hl
              rw [Option.none_or, Option.or_none]
              apply combine_pl hds hnk hDD.symm
              have h1 := hUge U[i] (List.getElem_mem hiU)
              have h2 : U[i] ≠ d0 := fun e => hnk (by rw [e, ← hDD]; simp [keys])
              omega
          rw [hval] at hlook
          simp only [List.getElem_map]
          exact Prod.ext hfst hlook.symm
      rw [hint]
      have hrows : ((U.map fun u => (u, some (pl u D))).zip
          ((reindexBfill (gaps (List.map Prod.fst D)) U).map fun r =>
            cellCmp (fun a b => decide (a > b)) r.2 (some m) ||
              (decide (d0 ≠ U.headD d0) && decide (r.1 ≤ d0)))).map
            (fun x => if x.2 = true then (x.1.1, none) else x.1) =
          rowsOf (fun u => some (pl u D)) U := by
        have hhead : U.headD d0 = d0 := by rw [hV]; rfl
        rw [hhead]
        clear hUs hUm hUge hV hint hkR hdR hhead
        induction U with
        | nil => rfl
        | cons u U ih =>
          simp only [reindexBfill, List.map_cons, List.zip_cons_cons, rowsOf] at ih ⊢
          rw [ih]
          congr 1
          rw [if_neg]
          simp only [ne_eq, not_true_eq_false, decide_false, Bool.false_and, Bool.or_false]
          cases hg : firstLabelGe (gaps (List.map Prod.fst D)) u with
          | none => simp [cellCmp]
          | some g =>
            have := firstLabelGe_gaps_le hgap hg
            simp only [cellCmp, gt_iff_lt, decide_eq_true_eq, not_lt]; exact this
      rw [hrows, hV]
      have hwin := trapTerms_window hds hDD.symm (fun u => some (pl u D)) V d0 (le_refl _)
        (by rw [← hV]; exact hUs)
        (fun k hk' hlt => by
          have := (hUm k).mpr (Or.inl (hdsub k hk'))
          rw [hV] at this
          rcases List.mem_cons.mp this with h | h
          · omega
          · exact h) (fun _ _ => rfl)
      simp only [rowsOf, List.map_cons] at hwin ⊢
      congr 1
      rw [← List.map_tail]
      apply List.map_congr_left
      intro L hL
      obtain ⟨hL1, hL2⟩ := htail L hL
      congr 1
      rw [sumMinCount1_eq, List.filter_cons, if_neg (by
        have := hlabge _ hL2
        simp; omega)]
      obtain ⟨h1, h2⟩ := hwin (L - f) L
        (by rw [← hV]; exact (hUm _).mpr (Or.inr hL2))
        (by rw [← hV]; exact (hUm _).mpr (Or.inr hL1)) (by omega)
      unfold total
      rw [if_neg (h2 (by omega)), h1]

end Verif
