import Verif.Spec.Cods

/-! # Lemmas about the collapsing of cleaning events -/

namespace Verif.Cods

open Verif Spec

theorem firstFrom_none {p : Nat → Bool} {lo k : Nat} : firstFrom p lo k = none ↔ ∀ i, lo ≤ i → i < lo + k → p i = false := by
  induction k generalizing lo with
  | zero => simp [firstFrom]; omega
  | succ k ih =>
    unfold firstFrom
    by_cases h : p lo = true
    · simp only [h, if_true, reduceCtorEq, false_iff, not_forall]
      exact ⟨lo, le_rfl, by omega, by simp [h]⟩
    · rw [if_neg h, ih]
      constructor
      · intro hh i h1 h2
        rcases Nat.eq_or_lt_of_le h1 with e | e
        · subst e; simpa using h
        · exact hh i e (by omega)
      · intro hh i h1 h2; exact hh i (by omega) (by omega)

theorem firstFrom_some {p : Nat → Bool} {lo k j : Nat} :
    firstFrom p lo k = some j ↔ lo ≤ j ∧ j < lo + k ∧ p j = true ∧ ∀ i, lo ≤ i → i < j → p i = false := by
  induction k generalizing lo with
  | zero => simp only [firstFrom, reduceCtorEq, false_iff]; omega
  | succ k ih =>
    unfold firstFrom
    by_cases h : p lo = true
    · simp only [h, if_true, Option.some.injEq]
      constructor
      · rintro rfl; exact ⟨le_rfl, by omega, h, by omega⟩
      · rintro ⟨h1, h2, h3, h4⟩
        rcases Nat.eq_or_lt_of_le h1 with e | e
        · exact e
        · have := h4 lo le_rfl e; rw [h] at this; cases this
    · rw [if_neg h, ih]
      constructor
      · rintro ⟨h1, h2, h3, h4⟩
        refine ⟨by omega, by omega, h3, fun i hi hj => ?_⟩
        rcases Nat.eq_or_lt_of_le hi with e | e
        · subst e; simpa using h
        · exact h4 i e hj
      · rintro ⟨h1, h2, h3, h4⟩
        have : lo ≠ j := fun e => h (e ▸ h3)
        exact ⟨by omega, by omega, h3, fun i hi hj => h4 i (by omega) hj⟩

theorem getB_setRange (l : List Bool) (a b : Nat) (v : Bool) (i : Nat) :
    getB (setRange l a b v) i = if i < l.length then (if a ≤ i ∧ i ≤ b then v else getB l i) else false := by
  unfold getB setRange
  simp only [List.getD_eq_getElem?_getD, List.getElem?_mapIdx]
  by_cases h : i < l.length
  · rw [if_pos h, List.getElem?_eq_getElem h]; simp
  · rw [if_neg h, List.getElem?_eq_none (by omega)]; simp

theorem length_setRange (l : List Bool) (a b : Nat) (v : Bool) : (setRange l a b v).length = l.length := by
  simp [setRange]

theorem getB_lt {l : List Bool} {i : Nat} (h : getB l i = true) : i < l.length := by
  by_contra hn
  unfold getB at h
  rw [List.getD_eq_getElem?_getD, List.getElem?_eq_none (by omega)] at h
  cases h

/-- what is known about the best value so far -/
def BestOf (m : List Cell) (a b : Nat) : Option (Nat × ℚ) → Prop
  | none => ∀ i, a ≤ i → i < b → cellAt m i = none
  | some (j, v) => a ≤ j ∧ j < b ∧ cellAt m j = some v ∧
      (∀ i w, a ≤ i → i < b → cellAt m i = some w → w ≤ v) ∧ ∀ i w, a ≤ i → i < j → cellAt m i = some w → w < v

theorem bestOf_better {m : List Cell} {a b : Nat} (hab : a ≤ b) {best : Option (Nat × ℚ)} (h : BestOf m a b best) :
    BestOf m a (b + 1) (better best b (cellAt m b)) := by
  have split : ∀ i, i < b + 1 → i < b ∨ i = b := fun i hi => by omega
  cases hc : cellAt m b with
  | none =>
    cases best with
    | none =>
      intro i h1 h2
      rcases split i h2 with h3 | rfl
      · exact h i h1 h3
      · exact hc
    | some p =>
      obtain ⟨j, v⟩ := p
      obtain ⟨h1, h2, h3, h4, h5⟩ := h
      refine ⟨h1, by omega, h3, fun i w ha hb hw => ?_, h5⟩
      rcases split i hb with h6 | rfl
      · exact h4 i w ha h6 hw
      · rw [hc] at hw; cases hw
  | some u =>
    cases best with
    | none =>
      refine ⟨hab, by omega, hc, fun i w ha hb hw => ?_, fun i w ha hb hw => ?_⟩
      · rcases split i hb with h6 | rfl
        · rw [h i ha h6] at hw; cases hw
        · rw [hc] at hw; cases hw; exact le_rfl
      · rw [h i ha hb] at hw; cases hw
    | some p =>
      obtain ⟨j, v⟩ := p
      obtain ⟨h1, h2, h3, h4, h5⟩ := h
      unfold better
      simp only
      by_cases hlt : v < u
      · rw [if_pos hlt]
        refine ⟨hab, by omega, hc, fun i w ha hb hw => ?_, fun i w ha hb hw => ?_⟩
        · rcases split i hb with h6 | rfl
          · exact (h4 i w ha h6 hw).trans hlt.le
          · rw [hc] at hw; cases hw; exact le_rfl
        · exact (h4 i w ha hb hw).trans_lt hlt
      · rw [if_neg hlt]
        refine ⟨h1, by omega, h3, fun i w ha hb hw => ?_, h5⟩
        rcases split i hb with h6 | rfl
        · exact h4 i w ha h6 hw
        · rw [hc] at hw; cases hw; exact not_lt.mp hlt

theorem bestOf_from {m : List Cell} {a lo k : Nat} (h : a ≤ lo) {best : Option (Nat × ℚ)} (hb : BestOf m a lo best) :
    BestOf m a (lo + k) (argmaxFrom m lo k best) := by
  induction k generalizing lo best with
  | zero => exact hb
  | succ k ih =>
    unfold argmaxFrom
    have := ih (lo := lo + 1) (by omega) (bestOf_better h hb)
    rwa [Nat.add_right_comm, Nat.add_assoc] at this

theorem argmaxCell_some {m : List Cell} {a b j : Nat} (hab : a ≤ b) (h : argmaxCell m a b = some j) :
    FirstMax (cellAt m) a b j := by
  unfold argmaxCell at h
  have hb := bestOf_from (m := m) (a := a) (lo := a) (k := b + 1 - a) le_rfl (best := none) (by intro i h1 h2; omega)
  cases hr : argmaxFrom m a (b + 1 - a) none with
  | none => rw [hr] at h; cases h
  | some p =>
    obtain ⟨j', v⟩ := p
    rw [hr] at h hb
    cases h
    obtain ⟨h1, h2, h3, h4, h5⟩ := hb
    exact ⟨h1, by omega, v, h3, fun i w ha hb' => h4 i w ha (by omega), h5⟩

theorem argmaxCell_none {m : List Cell} {a b : Nat} (hab : a ≤ b) (h : argmaxCell m a b = none) :
    ∀ i, a ≤ i → i ≤ b → cellAt m i = none := by
  unfold argmaxCell at h
  have hb := bestOf_from (m := m) (a := a) (lo := a) (k := b + 1 - a) le_rfl (best := none) (by intro i h1 h2; omega)
  cases hr : argmaxFrom m a (b + 1 - a) none with
  | none =>
    rw [hr] at hb
    intro i h1 h2
    exact hb i h1 (by omega)
  | some p => rw [hr] at h; cases h

theorem firstMax_unique {m : Nat → Cell} {a b j k : Nat} (h1 : FirstMax m a b j) (h2 : FirstMax m a b k) : j = k := by
  obtain ⟨a1, b1, v, e1, m1, f1⟩ := h1
  obtain ⟨a2, b2, w, e2, m2, f2⟩ := h2
  rcases lt_trichotomy j k with h | h | h
  · have := f2 j v a1 h e1
    have := m1 k w a2 b2 e2
    linarith
  · exact h
  · have := f1 k w a2 h e2
    have := m2 j v a1 b1 e1
    linarith

/-- the part of the candidates still to be searched -/
def Rest (c : Nat → Bool) (dummy : List Bool) (lo hi : Nat) : Prop :=
  ∀ i, getB dummy i = if lo ≤ i ∧ i < hi then c i else false

/-- number of candidates still to be searched -/
def cnt (c : Nat → Bool) (lo k : Nat) : Nat := ((List.range k).filter fun i => c (lo + i)).length

theorem cnt_le (c : Nat → Bool) (lo k : Nat) : cnt c lo k ≤ k := by
  unfold cnt
  exact (List.length_filter_le _ _).trans (by simp)

theorem collapseLoop_none {metric : List Cell} {f hi fuel s e1 : Nat} {dummy out : List Bool} (h0 : s ≠ 0)
    (hm : idxminB dummy s hi = e1) (hse : s < e1) (hmax : argmaxCell metric (s - f) (e1 - 1 + f) = none) :
    collapseLoop metric f hi (fuel + 1) dummy out s = .error .valueError := by
  unfold collapseLoop
  simp only [if_neg h0, hm, if_pos hse, hmax]

theorem collapseLoop_some {metric : List Cell} {f hi fuel s e1 j : Nat} {dummy out : List Bool} (h0 : s ≠ 0)
    (hm : idxminB dummy s hi = e1) (hse : s < e1) (hmax : argmaxCell metric (s - f) (e1 - 1 + f) = some j) :
    collapseLoop metric f hi (fuel + 1) dummy out s =
      collapseLoop metric f hi fuel (setRange dummy (s - f) (e1 - 1 + f) false)
        (setRange (setRange out (s - f) (e1 - 1 + f) false) j j true)
        (if idxmaxB (setRange dummy (s - f) (e1 - 1 + f) false) f hi = f then 0
         else idxmaxB (setRange dummy (s - f) (e1 - 1 + f) false) f hi) := by
  conv_lhs => unfold collapseLoop
  simp only [if_neg h0, hm, if_pos hse, hmax]

/-- the loop computes the events of the islands, given that there is enough fuel -/
theorem collapseLoop_spec {metric : List Cell} {c : Nat → Bool} {f n : Nat} (hf : 0 < f) (hn : 2 * f < n) :
    ∀ (fuel lo : Nat) (dummy out : List Bool) (start : Nat), dummy.length = n → out.length = n →
      f ≤ lo → Rest c dummy lo (n - f) →
      ((start = 0 ∧ ∀ i, lo ≤ i → i < n - f → c i = false) ∨
        (start = idxmaxB dummy f (n - f))) →
      n - f - lo < fuel →
      (collapseLoop metric f (n - f) fuel dummy out start = .error .valueError ∨
      ∃ L res, collapseLoop metric f (n - f) fuel dummy out start = .ok res ∧ Islands c f (n - f) lo L ∧ res.length = n ∧
        ∀ j, getB res j = true ↔ (Event (cellAt metric) f L j ∨ (getB out j = true ∧ ∀ p ∈ L, j + f < p.1 ∨ p.2 + f < j))) ∧
      ((∀ i, lo ≤ i → i < n - f → c i = true → (cellAt metric i).isSome) →
        collapseLoop metric f (n - f) fuel dummy out start ≠ .error .valueError) := by
  intro fuel
  induction fuel with
  | zero => intro lo dummy out start _ _ _ _ _ h; omega
  | succ fuel ih =>
    intro lo dummy out start hd ho hlo hrest hstart hfuel
    have noEvent : ∀ j, ¬ Event (cellAt metric) f [] j := by
      rintro j ⟨L1, s, e, L2, h, -⟩; simp at h
    have done : ∀ (hI : Islands c f (n - f) lo []),
        collapseLoop metric f (n - f) (fuel + 1) dummy out start = .ok out →
        (collapseLoop metric f (n - f) (fuel + 1) dummy out start = .error .valueError ∨
        ∃ L res, collapseLoop metric f (n - f) (fuel + 1) dummy out start = .ok res ∧ Islands c f (n - f) lo L ∧
          res.length = n ∧ ∀ j, getB res j = true ↔
            (Event (cellAt metric) f L j ∨ (getB out j = true ∧ ∀ p ∈ L, j + f < p.1 ∨ p.2 + f < j))) ∧
        ((∀ i, lo ≤ i → i < n - f → c i = true → (cellAt metric i).isSome) →
          collapseLoop metric f (n - f) (fuel + 1) dummy out start ≠ .error .valueError) := by
      intro hI he
      refine ⟨.inr ⟨[], out, he, hI, ho, fun j => ?_⟩, fun _ h => by rw [he] at h; cases h⟩
      constructor
      · intro h; exact .inr ⟨h, by simp⟩
      · rintro (h | h)
        · exact absurd h (noEvent j)
        · exact h.1
    rcases hstart with ⟨h0, hnone⟩ | hstart
    · exact done (.none hnone) (by unfold collapseLoop; rw [if_pos h0])
    · cases hfirst : firstFrom (getB dummy) f (n - f - f) with
      | none =>
        -- no candidate left: start = f, the island is empty
        have hs : start = f := by rw [hstart]; unfold idxmaxB; rw [hfirst]; rfl
        have hnone := firstFrom_none.mp hfirst
        have hcn : ∀ i, lo ≤ i → i < n - f → c i = false := by
          intro i h1 h2
          have := hnone i (by omega) (by omega)
          rw [hrest i, if_pos ⟨h1, h2⟩] at this
          exact this
        apply done (.none hcn)
        unfold collapseLoop
        rw [if_neg (by omega), if_neg]
        have hmin : firstFrom (fun i => !getB dummy i) start (n - f - start) = some start := by
          rw [firstFrom_some]
          refine ⟨le_rfl, by omega, ?_, by omega⟩
          rw [hs, hnone f le_rfl (by omega)]; rfl
        unfold idxminB
        rw [hmin]
        simp
      | some s =>
        obtain ⟨s1, s2, s3, s4⟩ := firstFrom_some.mp hfirst
        have hs : start = s := by rw [hstart]; unfold idxmaxB; rw [hfirst]; rfl
        have hsl : lo ≤ s := by
          by_contra hh
          rw [hrest s, if_neg (by omega)] at s3; cases s3
        have hcs : c s = true := by rw [hrest s, if_pos ⟨hsl, by omega⟩] at s3; exact s3
        have hbefore : ∀ i, lo ≤ i → i < s → c i = false := by
          intro i h1 h2
          have := s4 i (by omega) h2
          rw [hrest i, if_pos ⟨h1, by omega⟩] at this
          exact this
        cases hmin : firstFrom (fun i => !getB dummy i) s (n - f - s) with
        | none =>
          have hall := firstFrom_none.mp hmin
          apply done (.atEnd hsl (by omega) hbefore ?_)
          · unfold collapseLoop
            rw [hs, if_neg (by omega), if_neg]
            unfold idxminB
            rw [hmin]
            simp
          · intro i h1 h2
            have := hall i h1 (by omega)
            rw [hrest i, if_pos ⟨by omega, h2⟩] at this
            simpa using this
        | some e1 =>
          obtain ⟨m1, m2, m3, m4⟩ := firstFrom_some.mp hmin
          have hm : idxminB dummy s (n - f) = e1 := by unfold idxminB; rw [hmin]; rfl
          have hse : s < e1 := by
            rcases Nat.eq_or_lt_of_le m1 with e | e
            · subst e; rw [s3] at m3; cases m3
            · exact e
          have he : ∀ i, s ≤ i → i ≤ e1 - 1 → c i = true := by
            intro i h1 h2
            have := m4 i h1 (by omega)
            rw [hrest i, if_pos ⟨by omega, by omega⟩] at this
            simpa using this
          have hce : c (e1 - 1 + 1) = false := by
            have : e1 - 1 + 1 = e1 := by omega
            rw [this]
            rw [hrest e1, if_pos ⟨by omega, by omega⟩] at m3
            simpa using m3
          cases hmax : argmaxCell metric (s - f) (e1 - 1 + f) with
          | none =>
            refine ⟨.inl (by rw [hs]; exact collapseLoop_none (by omega) hm hse hmax), fun hp => ?_⟩
            have h1 := argmaxCell_none (by omega) hmax s (by omega) (by omega)
            have h2 := hp s hsl (by omega) hcs
            rw [h1] at h2; cases h2
          | some j =>
            have hj := argmaxCell_some (by omega) hmax
            rw [hs, collapseLoop_some (by omega) hm hse hmax]
            have hrest' : Rest c (setRange dummy (s - f) (e1 - 1 + f) false) (e1 - 1 + f + 1) (n - f) := by
              intro i
              rw [getB_setRange, hrest i]
              by_cases hi : e1 - 1 + f + 1 ≤ i ∧ i < n - f
              · rw [if_pos hi, if_pos (by omega), if_neg (by omega), if_pos ⟨by omega, hi.2⟩]
              · rw [if_neg hi]
                by_cases hi2 : lo ≤ i ∧ i < n - f
                · rw [if_pos hi2]
                  by_cases hi3 : s ≤ i
                  · rw [if_pos (by omega), if_pos ⟨by omega, by omega⟩]
                  · have := hbefore i hi2.1 (by omega)
                    rw [this]; split_ifs <;> rfl
                · rw [if_neg hi2]; split_ifs <;> rfl
            have hlenD : (setRange dummy (s - f) (e1 - 1 + f) false).length = n := by rw [length_setRange, hd]
            have hlenO : (setRange (setRange out (s - f) (e1 - 1 + f) false) j j true).length = n := by
              rw [length_setRange, length_setRange, ho]
            have hst' : ((if idxmaxB (setRange dummy (s - f) (e1 - 1 + f) false) f (n - f) = f then 0
                   else idxmaxB (setRange dummy (s - f) (e1 - 1 + f) false) f (n - f)) = 0 ∧
                  ∀ i, e1 - 1 + f + 1 ≤ i → i < n - f → c i = false) ∨
                ((if idxmaxB (setRange dummy (s - f) (e1 - 1 + f) false) f (n - f) = f then 0
                   else idxmaxB (setRange dummy (s - f) (e1 - 1 + f) false) f (n - f)) =
                  idxmaxB (setRange dummy (s - f) (e1 - 1 + f) false) f (n - f)) := by
              by_cases hh : idxmaxB (setRange dummy (s - f) (e1 - 1 + f) false) f (n - f) = f
              · left
                refine ⟨if_pos hh, ?_⟩
                unfold idxmaxB at hh
                cases hff : firstFrom (getB (setRange dummy (s - f) (e1 - 1 + f) false)) f (n - f - f) with
                | none =>
                  intro i h1 h2
                  have := firstFrom_none.mp hff i (by omega) (by omega)
                  rw [hrest' i, if_pos ⟨h1, h2⟩] at this
                  exact this
                | some k =>
                  rw [hff] at hh
                  simp only [Option.getD_some] at hh
                  have := (firstFrom_some.mp hff).2.2.1
                  rw [hh, hrest' f, if_neg (by omega)] at this
                  cases this
              · right; exact if_neg hh
            have ihh := ih (e1 - 1 + f + 1) (setRange dummy (s - f) (e1 - 1 + f) false)
              (setRange (setRange out (s - f) (e1 - 1 + f) false) j j true) _ hlenD hlenO (by omega) hrest' hst' (by omega)
            obtain ⟨ih1, ih2⟩ := ihh
            refine ⟨?_, fun hp => ih2 fun i h1 h2 h3 => hp i (by omega) h2 h3⟩
            rcases ih1 with h | ⟨L, res, h1, h2, h3, h4⟩
            · exact .inl h
            · refine .inr ⟨(s, e1 - 1) :: L, res, h1, .cons hsl (by omega) (by omega) hbefore he hce h2, h3, fun i => ?_⟩
              rw [h4 i, getB_setRange, getB_setRange, length_setRange, ho]
              have hLs : ∀ p ∈ L, e1 - 1 + f + 1 ≤ p.1 ∧ p.1 ≤ p.2 := by
                intro p hp
                have aux : ∀ {lo L}, Islands c f (n - f) lo L → ∀ p ∈ L, lo ≤ p.1 ∧ p.1 ≤ p.2 := by
                  intro lo L hI
                  induction hI with
                  | none => intro p hp; cases hp
                  | atEnd => intro p hp; cases hp
                  | cons g0 g1 g2 g3 g4 g5 g6 ihg =>
                    intro p hp
                    rcases List.mem_cons.mp hp with rfl | hp
                    · exact ⟨g0, g1⟩
                    · have := ihg p hp
                      exact ⟨by omega, this.2⟩
                exact aux h2 p hp
              obtain ⟨j1, j2, jrest⟩ := hj
              have hjn : j < n := by omega
              constructor
              · rintro (⟨L1, s', e', L2, hL, hmx, hlater⟩ | ⟨hset, hlater⟩)
                · exact .inl ⟨(s, e1 - 1) :: L1, s', e', L2, by rw [hL]; rfl, hmx, hlater⟩
                · by_cases hij : j ≤ i ∧ i ≤ j
                  · have hij' : i = j := by omega
                    subst hij'
                    exact .inl ⟨[], s, e1 - 1, L, rfl, ⟨j1, j2, jrest⟩, fun p hp => by
                      rcases hlater p hp with h | h
                      · exact h
                      · have := hLs p hp; omega⟩
                  · rw [if_neg hij] at hset
                    have hin : i < n := by
                      by_contra hh; rw [if_neg hh] at hset; cases hset
                    rw [if_pos hin, if_pos hin] at hset
                    by_cases hw : s - f ≤ i ∧ i ≤ e1 - 1 + f
                    · rw [if_pos hw] at hset; cases hset
                    · rw [if_neg hw] at hset
                      refine .inr ⟨hset, fun p hp => ?_⟩
                      rcases List.mem_cons.mp hp with rfl | hp
                      · simp only; omega
                      · exact hlater p hp
              · rintro (⟨L1, s', e', L2, hL, hmx, hlater⟩ | ⟨hset, hlater⟩)
                · cases L1 with
                  | nil =>
                    simp only [List.nil_append, List.cons.injEq, Prod.mk.injEq] at hL
                    obtain ⟨⟨rfl, rfl⟩, rfl⟩ := hL
                    have : i = j := firstMax_unique hmx ⟨j1, j2, jrest⟩
                    subst this
                    right
                    refine ⟨by rw [if_pos hjn, if_pos ⟨le_rfl, le_rfl⟩], fun p hp => .inl (hlater p hp)⟩
                  | cons q L1 =>
                    simp only [List.cons_append, List.cons.injEq] at hL
                    exact .inl ⟨L1, s', e', L2, hL.2, hmx, hlater⟩
                · right
                  have hw := hlater (s, e1 - 1) List.mem_cons_self
                  simp only at hw
                  have hin : i < n := ho ▸ getB_lt hset
                  refine ⟨?_, fun p hp => hlater p (List.mem_cons_of_mem _ hp)⟩
                  rw [if_pos hin, if_neg (by omega), if_pos hin, if_neg (by omega)]
                  exact hset

end Verif.Cods
