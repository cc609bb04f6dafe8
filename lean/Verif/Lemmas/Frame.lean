import Verif.Model.Frame
import Verif.Lemmas.Stats

/-! Helper lemmas on keyed columns. -/

namespace Verif

abbrev keys {α : Type} (K : List (Int × α)) : List Int := K.map Prod.fst

theorem lookupK_of_not_mem {α : Type} {K : List (Int × Option α)} {t : Int} (h : t ∉ keys K) :
    lookupK K t = none := by
  induction K with
  | nil => rfl
  | cons r K ih =>
    obtain ⟨u, x⟩ := r
    simp only [keys, List.map_cons, List.mem_cons, not_or] at h
    simp only [lookupK]
    rw [if_neg (fun e => h.1 e.symm)]
    exact ih h.2

theorem lookupK_of_mem {α : Type} {K : List (Int × Option α)} {t : Int} {x : Option α}
    (hn : (keys K).Nodup) (h : (t, x) ∈ K) : lookupK K t = x := by
  induction K with
  | nil => simp at h
  | cons r K ih =>
    obtain ⟨u, y⟩ := r
    simp only [keys, List.map_cons, List.nodup_cons] at hn
    simp only [lookupK]
    rcases List.mem_cons.mp h with h | h
    · cases h; simp
    · rw [if_neg, ih hn.2 h]
      rintro rfl
      exact hn.1 (List.mem_map.mpr ⟨_, h, rfl⟩)

theorem lookupK_mem {α : Type} {K : List (Int × Option α)} {t : Int} (h : t ∈ keys K) :
    (t, lookupK K t) ∈ K := by
  induction K with
  | nil => simp at h
  | cons r K ih =>
    obtain ⟨u, y⟩ := r
    simp only [lookupK]
    by_cases hu : u = t
    · subst hu; simp
    · rw [if_neg hu]
      simp only [keys, List.map_cons, List.mem_cons] at h
      rcases h with h | h
      · exact absurd h.symm hu
      · exact List.mem_cons_of_mem _ (ih h)

theorem lookupK_eq_some {α : Type} {K : List (Int × Option α)} {t : Int} {a : α}
    (h : lookupK K t = some a) : (t, some a) ∈ K := by
  by_cases ht : t ∈ keys K
  · rw [← h]; exact lookupK_mem ht
  · rw [lookupK_of_not_mem ht] at h; simp at h

theorem StrictSorted.nodup {l : List Int} (h : StrictSorted l) : l.Nodup :=
  h.imp (fun hab => ne_of_lt hab)

theorem sortedUnion_sorted (l : List Int) : StrictSorted (sortedUnion l) := by
  unfold sortedUnion StrictSorted
  have h1 := List.pairwise_insertionSort (· ≤ ·) l.dedup
  have h2 : (l.dedup.insertionSort (· ≤ ·)).Nodup :=
    (List.perm_insertionSort _ _).nodup_iff.mpr (List.nodup_dedup l)
  refine (h1.and h2).imp ?_
  rintro a b ⟨hab, hne⟩
  exact lt_of_le_of_ne hab hne

theorem mem_sortedUnion {l : List Int} {t : Int} : t ∈ sortedUnion l ↔ t ∈ l := by
  unfold sortedUnion
  rw [List.mem_insertionSort, List.mem_dedup]

theorem keys_reindexK {α : Type} (K : List (Int × Option α)) (idx : List Int) :
    keys (reindexK K idx) = idx := by
  simp [keys, reindexK, Function.comp_def]

theorem mem_reindexK_some {α : Type} {K : List (Int × Option α)} {idx : List Int} {t : Int} {a : α}
    (hn : (keys K).Nodup) (hsub : ∀ u ∈ keys K, u ∈ idx) :
    (t, some a) ∈ reindexK K idx ↔ (t, some a) ∈ K := by
  unfold reindexK
  simp only [List.mem_map, Prod.mk.injEq]
  constructor
  · rintro ⟨u, _, rfl, h⟩; exact lookupK_eq_some h
  · intro h
    exact ⟨t, hsub t (List.mem_map.mpr ⟨_, h, rfl⟩), rfl, lookupK_of_mem hn h⟩

/-- The first non-missing entry at or after `t`. -/
def firstSomeGe {α : Type} : List (Int × Option α) → Int → Option α
  | [], _ => none
  | (u, x) :: l, t => if t ≤ u then (match x with | some a => some a | none => firstSomeGe l t)
      else firstSomeGe l t

theorem firstSomeGe_eq_none {α : Type} {K : List (Int × Option α)} {t : Int} :
    firstSomeGe K t = none ↔ ∀ u a, (u, some a) ∈ K → u < t := by
  induction K with
  | nil => simp [firstSomeGe]
  | cons r K ih =>
    obtain ⟨u, x⟩ := r
    simp only [firstSomeGe]
    split
    · next h =>
      cases x with
      | none =>
        simp only [ih, List.mem_cons, Prod.mk.injEq]
        constructor
        · rintro h2 v a (⟨_, h3⟩ | h3)
          · simp at h3
          · exact h2 v a h3
        · intro h2 v a h3; exact h2 v a (Or.inr h3)
      | some a =>
        simp only [reduceCtorEq, false_iff, not_forall]
        exact ⟨u, a, by simp, by omega⟩
    · next h =>
      simp only [ih, List.mem_cons, Prod.mk.injEq]
      constructor
      · rintro h2 v a (⟨rfl, h3⟩ | h3)
        · omega
        · exact h2 v a h3
      · intro h2 v a h3; exact h2 v a (Or.inr h3)

theorem firstSomeGe_eq_some {α : Type} {K : List (Int × Option α)} (hs : StrictSorted (keys K))
    {t : Int} {a : α} :
    firstSomeGe K t = some a ↔
      ∃ u, (u, some a) ∈ K ∧ t ≤ u ∧ ∀ w b, (w, some b) ∈ K → t ≤ w → u ≤ w := by
  induction K with
  | nil => simp [firstSomeGe]
  | cons r K ih =>
    obtain ⟨u, x⟩ := r
    simp only [keys, List.map_cons, StrictSorted, List.pairwise_cons, List.mem_map] at hs
    have hlt : ∀ w b, (w, b) ∈ K → u < w := fun w b hw => hs.1 w ⟨(w, b), hw, rfl⟩
    have ih' := ih hs.2
    simp only [firstSomeGe]
    split
    · next h =>
      cases x with
      | none =>
        simp only [ih']
        constructor
        · rintro ⟨v, hv, htv, hmin⟩
          refine ⟨v, by simp [hv], htv, ?_⟩
          rintro w b hw htw
          rcases List.mem_cons.mp hw with hw | hw
          · cases hw
          · exact hmin w b hw htw
        · rintro ⟨v, hv, htv, hmin⟩
          rcases List.mem_cons.mp hv with hv | hv
          · cases hv
          · exact ⟨v, hv, htv, fun w b hw => hmin w b (by simp [hw])⟩
      | some c =>
        constructor
        · rintro h2
          cases h2
          refine ⟨u, by simp, h, ?_⟩
          intro w b hw _
          rcases List.mem_cons.mp hw with hw | hw
          · cases hw; exact le_refl _
          · exact (hlt w _ hw).le
        · rintro ⟨v, hv, htv, hmin⟩
          rcases List.mem_cons.mp hv with hv | hv
          · cases hv; rfl
          · have h1 := hlt v _ hv
            have h2 := hmin u c (by simp) h
            omega
    · next h =>
      simp only [ih']
      constructor
      · rintro ⟨v, hv, htv, hmin⟩
        refine ⟨v, by simp [hv], htv, ?_⟩
        intro w b hw htw
        rcases List.mem_cons.mp hw with hw | hw
        · cases hw; omega
        · exact hmin w b hw htw
      · rintro ⟨v, hv, htv, hmin⟩
        rcases List.mem_cons.mp hv with hv | hv
        · cases hv; omega
        · exact ⟨v, hv, htv, fun w b hw => hmin w b (by simp [hw])⟩

theorem firstSomeGe_congr {α : Type} {K L : List (Int × Option α)} (hK : StrictSorted (keys K))
    (hL : StrictSorted (keys L)) (h : ∀ u a, (u, some a) ∈ K ↔ (u, some a) ∈ L) (t : Int) :
    firstSomeGe K t = firstSomeGe L t := by
  cases hk : firstSomeGe K t with
  | none =>
    symm
    rw [firstSomeGe_eq_none] at hk ⊢
    intro u a hu; exact hk u a ((h u a).mpr hu)
  | some a =>
    symm
    rw [firstSomeGe_eq_some hK] at hk
    rw [firstSomeGe_eq_some hL]
    obtain ⟨u, h1, h2, h3⟩ := hk
    exact ⟨u, (h u a).mp h1, h2, fun w b hw => h3 w b ((h w b).mpr hw)⟩

theorem keys_bfillK {α : Type} (K : List (Int × Option α)) : keys (bfillK K) = keys K := by
  induction K with
  | nil => rfl
  | cons r K ih =>
    obtain ⟨u, x⟩ := r
    simp only [keys] at ih
    cases x <;> simp [bfillK, ih, keys]

theorem bfillK_eq {α : Type} {K : List (Int × Option α)} (hs : StrictSorted (keys K)) :
    bfillK K = K.map fun r => (r.1, firstSomeGe K r.1) := by
  induction K with
  | nil => rfl
  | cons r K ih =>
    obtain ⟨u, x⟩ := r
    simp only [keys, List.map_cons, StrictSorted, List.pairwise_cons, List.mem_map] at hs
    have hlt : ∀ r ∈ K, u < r.1 := fun r hr => hs.1 r.1 ⟨r, hr, rfl⟩
    have htail : (K.map fun r => (r.1, firstSomeGe ((u, x) :: K) r.1)) =
        K.map fun r => (r.1, firstSomeGe K r.1) := by
      apply List.map_congr_left
      intro r hr
      have := hlt r hr
      simp only [firstSomeGe]
      rw [if_neg (by omega)]
    rw [List.map_cons, htail, ← ih hs.2]
    cases x with
    | some a => simp [bfillK, firstSomeGe]
    | none =>
      simp only [bfillK, firstSomeGe, le_refl, if_true, List.cons.injEq, Prod.mk.injEq, true_and,
        and_true]
      rw [ih hs.2]
      cases K with
      | nil => rfl
      | cons s K =>
        obtain ⟨w, y⟩ := s
        have hw : u < w := hlt (w, y) (by simp)
        simp only [List.map_cons, firstSomeGe, le_refl, if_true]
        rw [if_pos hw.le]
        cases y with
        | some b => rfl
        | none =>
          simp only
          -- both sides look at entries of K, all of which are later than `w`
          have hw2 : ∀ r ∈ K, w < r.1 := by
            have := hs.2
            simp only [List.map_cons, List.pairwise_cons, List.mem_map] at this
            exact fun r hr => this.1 r.1 ⟨r, hr, rfl⟩
          clear ih htail hlt hs
          induction K with
          | nil => rfl
          | cons s K ih2 =>
            obtain ⟨z, y⟩ := s
            have hz := hw2 (z, y) (by simp)
            simp only [firstSomeGe]
            simp only at hz
            rw [if_pos (by omega), if_pos (by omega)]
            cases y with
            | some b => rfl
            | none => exact ih2 (fun r hr => hw2 r (by simp [hr]))

theorem keys_interpFrom (p : Option (Int × ℚ)) (K : List (Int × Cell)) :
    keys (interpFrom p K) = keys K := by
  induction K generalizing p with
  | nil => rfl
  | cons r K ih =>
    obtain ⟨u, x⟩ := r
    simp only [keys] at ih
    cases x <;> simp [interpFrom, ih, keys]

/-- Last row before / first row after `t`. -/
def prevRow (d : List (Int × ℚ)) (t : Int) : Option (Int × ℚ) :=
  (d.filter fun r => decide (r.1 < t)).getLast?
def nextRow (d : List (Int × ℚ)) (t : Int) : Option (Int × ℚ) :=
  (d.filter fun r => decide (t < r.1)).head?

/-- value between two optional neighbours -/
def combine (p n : Option (Int × ℚ)) (t : Int) : Cell :=
  match p, n with
  | none, _ => none
  | some (_, va), none => some va
  | some (a, va), some (b, vb) => some (lerpAt a va b vb t)

theorem keys_dropna_sub {K : List (Int × Cell)} {t : Int} (h : t ∈ keys (dropna K)) :
    t ∈ keys K := by
  simp only [keys, dropna, List.mem_map, List.mem_filterMap] at h ⊢
  obtain ⟨r, ⟨s, hs, hr⟩, rfl⟩ := h
  obtain ⟨v, _, rfl⟩ := Option.map_eq_some_iff.mp hr
  exact ⟨s, hs, rfl⟩

theorem mem_dropna {K : List (Int × Cell)} {t : Int} {v : ℚ} :
    (t, v) ∈ dropna K ↔ (t, some v) ∈ K := by
  simp only [dropna, List.mem_filterMap]
  constructor
  · rintro ⟨⟨u, x⟩, hs, hr⟩
    obtain ⟨w, hw, he⟩ := Option.map_eq_some_iff.mp hr
    simp only [Prod.mk.injEq] at he
    obtain ⟨rfl, rfl⟩ := he
    rw [← hw]; exact hs
  · intro h; exact ⟨(t, some v), h, rfl⟩

theorem dropna_sorted {K : List (Int × Cell)} (h : StrictSorted (keys K)) :
    StrictSorted (keys (dropna K)) := by
  induction K with
  | nil => exact List.Pairwise.nil
  | cons r K ih =>
    obtain ⟨u, x⟩ := r
    simp only [keys, List.map_cons, StrictSorted, List.pairwise_cons] at h
    cases x with
    | none => exact ih h.2
    | some a =>
      have : keys (dropna ((u, some a) :: K)) = u :: keys (dropna K) := rfl
      rw [this]
      refine List.pairwise_cons.mpr ⟨?_, ih h.2⟩
      intro w hw
      exact h.1 w (keys_dropna_sub hw)

theorem nextValid_eq (K : List (Int × Cell)) : nextValid K = (dropna K).head? := by
  induction K with
  | nil => rfl
  | cons r K ih =>
    obtain ⟨u, x⟩ := r
    cases x with
    | none => simpa [nextValid, dropna] using ih
    | some a => simp [nextValid, dropna]

theorem lookup_interpFrom {K : List (Int × Cell)} (hs : StrictSorted (keys K))
    (p : Option (Int × ℚ)) {t : Int} {x : Cell} (h : (t, x) ∈ K) :
    lookupK (interpFrom p K) t =
      x.or (combine ((prevRow (dropna K) t).or p) (nextRow (dropna K) t) t) := by
  induction K generalizing p with
  | nil => simp at h
  | cons r K ih =>
    obtain ⟨u, y⟩ := r
    simp only [keys, List.map_cons, StrictSorted, List.pairwise_cons, List.mem_map] at hs
    have hlt : ∀ w b, (w, b) ∈ K → u < w := fun w b hw => hs.1 w ⟨(w, b), hw, rfl⟩
    have hltd : ∀ r ∈ dropna K, u < r.1 := fun r hr => hlt r.1 _ (mem_dropna.mp hr)
    rcases List.mem_cons.mp h with h' | h'
    · cases h'
      cases x with
      | some v => simp [interpFrom, lookupK]
      | none =>
        simp only [interpFrom, lookupK, if_true]
        have hd : dropna ((t, none) :: K) = dropna K := rfl
        rw [hd]
        have hp : prevRow (dropna K) t = none := by
          unfold prevRow
          rw [List.getLast?_eq_none_iff, List.filter_eq_nil_iff]
          intro r hr; have := hltd r hr; simp; omega
        have hn : nextRow (dropna K) t = nextValid K := by
          unfold nextRow
          rw [nextValid_eq, List.filter_eq_self.mpr]
          intro r hr; have := hltd r hr; simpa using this
        rw [hp, hn]
        rfl
    · have hut : u < t := hlt t x h'
      cases y with
      | none =>
        simp only [interpFrom, lookupK]
        rw [if_neg (ne_of_lt hut), ih hs.2 p h']
        rfl
      | some v =>
        simp only [interpFrom, lookupK]
        rw [if_neg (ne_of_lt hut), ih hs.2 (some (u, v)) h']
        cases x with
        | some _ => rfl
        | none =>
          have hd : dropna ((u, some v) :: K) = (u, v) :: dropna K := rfl
          rw [hd]
          have hp : prevRow ((u, v) :: dropna K) t = (prevRow (dropna K) t).or (some (u, v)) := by
            unfold prevRow
            rw [List.filter_cons, if_pos (by simpa using hut), List.getLast?_cons]
            cases ((dropna K).filter fun r => decide (r.1 < t)).getLast? <;> rfl
          have hn : nextRow ((u, v) :: dropna K) t = nextRow (dropna K) t := by
            unfold nextRow
            rw [List.filter_cons, if_neg (by simp; omega)]
          rw [hp, hn]
          cases prevRow (dropna K) t <;> rfl

/-- Two rows next to each other. -/
def Adjacent {α : Type} (l : List α) (x y : α) : Prop := ∃ l1 l2, l = l1 ++ x :: y :: l2

theorem Adjacent.lt {d : List (Int × ℚ)} (hs : StrictSorted (keys d)) {a b : Int} {va vb : ℚ}
    (h : Adjacent d (a, va) (b, vb)) : a < b := by
  obtain ⟨l1, l2, rfl⟩ := h
  simp only [keys, StrictSorted, List.map_append, List.map_cons, List.pairwise_append,
    List.pairwise_cons] at hs
  exact hs.2.1.1 b (by simp)

theorem prev_next_of_adjacent {d : List (Int × ℚ)} (hs : StrictSorted (keys d)) {a b : Int}
    {va vb : ℚ} (h : Adjacent d (a, va) (b, vb)) {t : Int} (h1 : a < t) (h2 : t < b) :
    prevRow d t = some (a, va) ∧ nextRow d t = some (b, vb) ∧ t ∉ keys d := by
  obtain ⟨l1, l2, rfl⟩ := h
  simp only [keys, StrictSorted, List.map_append, List.map_cons, List.pairwise_append,
    List.pairwise_cons, List.mem_map, List.mem_cons] at hs
  obtain ⟨_, ⟨h3, h4, h5⟩, h6⟩ := hs
  have hl1 : ∀ r ∈ l1, r.1 < a := fun r hr => h6 r.1 ⟨r, hr, rfl⟩ a (by simp)
  have hl2 : ∀ r ∈ l2, b < r.1 := fun r hr => h4 r.1 ⟨r, hr, rfl⟩
  have f1 : l1.filter (fun r => decide (r.1 < t)) = l1 :=
    List.filter_eq_self.mpr fun r hr => by have := hl1 r hr; simp; omega
  have f2 : l1.filter (fun r => decide (t < r.1)) = [] :=
    List.filter_eq_nil_iff.mpr fun r hr => by have := hl1 r hr; simp; omega
  have f3 : l2.filter (fun r => decide (r.1 < t)) = [] :=
    List.filter_eq_nil_iff.mpr fun r hr => by have := hl2 r hr; simp; omega
  refine ⟨?_, ?_, ?_⟩
  · unfold prevRow
    rw [List.filter_append, f1, List.filter_cons, if_pos (by simpa using h1), List.filter_cons,
      if_neg (by simp; omega), f3]
    simp
  · unfold nextRow
    rw [List.filter_append, f2, List.filter_cons, if_neg (by simp; omega), List.filter_cons,
      if_pos (by simpa using h2)]
    simp
  · simp only [keys, List.map_append, List.map_cons, List.mem_append, List.mem_cons, List.mem_map,
      not_or, not_exists, not_and]
    refine ⟨fun r hr e => ?_, by omega, by omega, fun r hr e => ?_⟩
    · have := hl1 r hr; omega
    · have := hl2 r hr; omega

theorem adjacent_of_prev_next {d : List (Int × ℚ)} (hs : StrictSorted (keys d)) {t : Int}
    (ht : t ∉ keys d) {x y : Int × ℚ} (hp : prevRow d t = some x) (hn : nextRow d t = some y) :
    Adjacent d x y ∧ x.1 < t ∧ t < y.1 := by
  have hsplit : d = d.filter (fun r => decide (r.1 < t)) ++ d.filter (fun r => decide (t < r.1)) := by
    clear hp hn
    induction d with
    | nil => rfl
    | cons r d ih =>
      simp only [keys, List.map_cons, StrictSorted, List.pairwise_cons, List.mem_map] at hs
      simp only [keys, List.map_cons, List.mem_cons, not_or] at ht
      by_cases hr : r.1 < t
      · rw [List.filter_cons, if_pos (by simpa using hr), List.filter_cons,
          if_neg (by simp; omega), List.cons_append, ← ih hs.2 ht.2]
      · have h1 : t < r.1 := by omega
        have h2 : ∀ s ∈ d, t < s.1 := fun s hs' => by
          have := hs.1 s.1 ⟨s, hs', rfl⟩; omega
        rw [List.filter_eq_nil_iff.mpr, List.filter_eq_self.mpr]
        · rfl
        · intro s hs'
          rcases List.mem_cons.mp hs' with rfl | hs'
          · simpa using h1
          · simpa using h2 s hs'
        · intro s hs'
          rcases List.mem_cons.mp hs' with rfl | hs'
          · simpa using hr
          · have := h2 s hs'; simp; omega
  have hx : x ∈ d.filter (fun r => decide (r.1 < t)) := List.mem_of_getLast? hp
  have hy : y ∈ d.filter (fun r => decide (t < r.1)) := List.mem_of_head? hn
  refine ⟨?_, by simpa using (List.mem_filter.mp hx).2, by simpa using (List.mem_filter.mp hy).2⟩
  obtain ⟨l1, h1⟩ := List.getLast?_eq_some_iff.mp hp
  obtain ⟨l2, h2⟩ := List.head?_eq_some_iff.mp hn
  refine ⟨l1, l2, ?_⟩
  rw [hsplit, h1, h2]
  simp

/-- Membership in the gap column. -/
theorem mem_gapsFrom_some {p : Int} {l : List Int} {t : Int} {g : ℚ} :
    (t, some g) ∈ gapsFrom p l ↔ ∃ a, Adjacent (p :: l) a t ∧ g = (t : ℚ) - a := by
  induction l generalizing p with
  | nil =>
    simp only [gapsFrom, List.not_mem_nil, false_iff]
    rintro ⟨a, ⟨l1, l2, h⟩, _⟩
    have := congrArg List.length h
    simp at this
    omega
  | cons u l ih =>
    simp only [gapsFrom, List.mem_cons, Prod.mk.injEq, Option.some.injEq, ih]
    constructor
    · rintro (⟨rfl, rfl⟩ | ⟨a, ⟨l1, l2, h⟩, rfl⟩)
      · exact ⟨p, ⟨[], l, rfl⟩, rfl⟩
      · exact ⟨a, ⟨p :: l1, l2, by rw [h]; rfl⟩, rfl⟩
    · rintro ⟨a, ⟨l1, l2, h⟩, rfl⟩
      cases l1 with
      | nil =>
        simp only [List.nil_append, List.cons.injEq] at h
        obtain ⟨rfl, rfl, _⟩ := h
        exact Or.inl ⟨rfl, rfl⟩
      | cons z l1 =>
        simp only [List.cons_append, List.cons.injEq] at h
        exact Or.inr ⟨a, ⟨l1, l2, h.2⟩, rfl⟩

theorem mem_gaps_some {l : List Int} {t : Int} {g : ℚ} :
    (t, some g) ∈ gaps l ↔ ∃ a, Adjacent l a t ∧ g = (t : ℚ) - a := by
  cases l with
  | nil =>
    simp only [gaps, List.not_mem_nil, false_iff]
    rintro ⟨a, ⟨l1, l2, h⟩, _⟩
    simp at h
  | cons p l =>
    simp only [gaps, List.mem_cons, Prod.mk.injEq, reduceCtorEq, and_false, false_or]
    exact mem_gapsFrom_some

theorem keys_gapsFrom (p : Int) (l : List Int) : keys (gapsFrom p l) = l := by
  induction l generalizing p with
  | nil => rfl
  | cons t l ih => simp only [keys] at ih; simp [gapsFrom, keys, ih]

theorem keys_gaps (l : List Int) : keys (gaps l) = l := by
  cases l with
  | nil => rfl
  | cons p l => have := keys_gapsFrom p l; simp only [keys] at this; simp [gaps, keys, this]

theorem adjacent_keys {d : List (Int × ℚ)} {a t : Int} :
    Adjacent (keys d) a t ↔ ∃ va vt, Adjacent d (a, va) (t, vt) := by
  constructor
  · rintro ⟨l1, l2, h⟩
    obtain ⟨m1, m2, rfl, h1, h2⟩ := List.map_eq_append_iff.mp h
    obtain ⟨x, m3, rfl, hx, h3⟩ := List.map_eq_cons_iff.mp h2
    obtain ⟨y, m4, rfl, hy, h4⟩ := List.map_eq_cons_iff.mp h3
    refine ⟨x.2, y.2, m1, m4, ?_⟩
    rw [← hx, ← hy]
  · rintro ⟨va, vt, l1, l2, rfl⟩
    exact ⟨keys l1, keys l2, by simp [keys]⟩

end Verif
