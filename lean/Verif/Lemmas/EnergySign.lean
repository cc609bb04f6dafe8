import Verif.Lemmas.EnergyLinear
import Verif.Lemmas.Frame

/-! Interpolation and energy conversion of non-negative power give non-negative results. -/

namespace Verif.Linear

/-- no negative value -/
def NN (K : List (Int × Cell)) : Prop := ∀ t v, (t, some v) ∈ K → 0 ≤ v

theorem NN.tail {r : Int × Cell} {K : List (Int × Cell)} (h : NN (r :: K)) : NN K :=
  fun t v hv => h t v (List.mem_cons_of_mem _ hv)

theorem NN.cons {t : Int} {x : Cell} {K : List (Int × Cell)} (hx : ∀ v, x = some v → 0 ≤ v) (h : NN K) :
    NN ((t, x) :: K) := by
  intro u v hv
  rcases List.mem_cons.mp hv with e | hv
  · cases e; exact hx v rfl
  · exact h u v hv

theorem NN.head {t : Int} {x : Cell} {K : List (Int × Cell)} (h : NN ((t, x) :: K)) :
    ∀ v, x = some v → 0 ≤ v := by
  rintro v rfl
  exact h t v List.mem_cons_self

theorem NN.lookup {K : List (Int × Cell)} (h : NN K) (t : Int) : ∀ v, lookupK K t = some v → 0 ≤ v := by
  induction K with
  | nil => intro v hv; cases hv
  | cons r K ih =>
    obtain ⟨u, x⟩ := r
    intro v hv
    simp only [lookupK] at hv
    split at hv
    · exact h.head v hv
    · exact ih h.tail v hv

theorem NN.dropna {K : Series} (h : NN K) : NN (toSeries (dropna K)) := by
  intro t v hv
  simp only [toSeries, Verif.dropna, List.mem_map, List.mem_filterMap, Prod.mk.injEq, Option.some.injEq] at hv
  obtain ⟨q, ⟨r, hr, hq⟩, rfl, rfl⟩ := hv
  obtain ⟨u, x⟩ := r
  cases x with
  | none => cases hq
  | some y =>
    simp only [Option.map_some, Option.some.injEq] at hq
    subst hq
    exact h u y hr

theorem NN.map_lookup {K : List (Int × Cell)} (h : NN K) (idx : List Int) :
    NN (idx.map fun t => (t, lookupK K t)) := by
  intro t v hv
  obtain ⟨u, -, e⟩ := List.mem_map.mp hv
  simp only [Prod.mk.injEq] at e
  exact h.lookup u v e.2

theorem NN.bfill {K : List (Int × Cell)} (h : NN K) : NN (bfillK K) := by
  induction K with
  | nil => exact h
  | cons r K ih =>
    obtain ⟨u, x⟩ := r
    cases x with
    | some y => exact NN.cons h.head (ih h.tail)
    | none =>
      simp only [bfillK]
      refine NN.cons ?_ (ih h.tail)
      intro v hv
      have := ih h.tail
      cases hb : bfillK K with
      | nil => rw [hb] at hv; cases hv
      | cons q l => rw [hb] at hv this; exact this.head v hv

theorem nextValid_mem {K : List (Int × Cell)} {b : Int} {v : ℚ} (h : nextValid K = some (b, v)) :
    (b, some v) ∈ K := by
  induction K with
  | nil => cases h
  | cons r K ih =>
    obtain ⟨u, x⟩ := r
    cases x with
    | some y => simp only [nextValid, Option.some.injEq, Prod.mk.injEq] at h; simp [h]
    | none => exact List.mem_cons_of_mem _ (ih h)

theorem lerpAt_nonneg {a t b : Int} {va vb : ℚ} (h1 : a ≤ t) (h2 : t ≤ b) (ha : 0 ≤ va) (hb : 0 ≤ vb) :
    0 ≤ lerpAt a va b vb t := by
  unfold lerpAt
  have q1 : (a : ℚ) ≤ t := by exact_mod_cast h1
  have q2 : (t : ℚ) ≤ b := by exact_mod_cast h2
  rcases eq_or_lt_of_le (le_trans q1 q2) with e | hlt
  · rw [e, sub_self, div_zero, zero_mul, add_zero]; exact ha
  · have hd : 0 < (b : ℚ) - a := by linarith
    have e : va + ((t : ℚ) - a) / (b - a) * (vb - va) =
        (va * (b - t) + vb * (t - a)) / (b - a) := by field_simp; ring
    rw [e]
    apply div_nonneg _ hd.le
    have := mul_nonneg ha (sub_nonneg.mpr q2)
    have := mul_nonneg hb (sub_nonneg.mpr q1)
    linarith

theorem NN.interp {K : List (Int × Cell)} (h : NN K) (hs : (K.map Prod.fst).Pairwise (· < ·))
    {p : Option (Int × ℚ)} (hp : ∀ a v, p = some (a, v) → 0 ≤ v ∧ ∀ t ∈ K.map Prod.fst, a ≤ t) :
    NN (interpFrom p K) := by
  induction K generalizing p with
  | nil => cases p <;> exact h
  | cons r K ih =>
    obtain ⟨u, x⟩ := r
    obtain ⟨hu, hs'⟩ := List.pairwise_cons.mp hs
    cases x with
    | some y =>
      simp only [interpFrom]
      refine NN.cons h.head (ih h.tail hs' ?_)
      intro a v e
      cases e
      exact ⟨h.head y rfl, fun t ht => (hu t ht).le⟩
    | none =>
      simp only [interpFrom]
      refine NN.cons ?_ (ih h.tail hs' fun a v e => ⟨(hp a v e).1, fun t ht => (hp a v e).2 t (List.mem_cons_of_mem _ ht)⟩)
      intro v hv
      cases p with
      | none => cases hv
      | some q =>
        obtain ⟨a, va⟩ := q
        obtain ⟨h1, h2⟩ := hp a va rfl
        cases hn : nextValid K with
        | none => rw [hn] at hv; cases hv; exact h1
        | some z =>
          obtain ⟨b, vb⟩ := z
          rw [hn] at hv
          simp only [Option.some.injEq] at hv
          rw [← hv]
          have hb := nextValid_mem hn
          exact lerpAt_nonneg (h2 u List.mem_cons_self)
            (hu b (List.mem_map.mpr ⟨_, hb, rfl⟩)).le h1 (h.tail b vb hb)

theorem NN.filterMask {K : List (Int × Cell)} (h : NN K) (mask : List Bool) :
    NN ((K.zip mask).map fun x => if x.2 then (x.1.1, none) else x.1) := by
  intro t v hv
  obtain ⟨x, hx, e⟩ := List.mem_map.mp hv
  split at e
  · cases e
  · exact h t v (e ▸ (List.of_mem_zip hx).1)

theorem keys_filterMask {K : List (Int × Cell)} {mask : List Bool} (hl : K.length ≤ mask.length) :
    ((K.zip mask).map fun x => if x.2 then (x.1.1, none) else x.1).map Prod.fst = K.map Prod.fst := by
  rw [List.map_map]
  have : (Prod.fst ∘ fun x : (Int × Cell) × Bool => if x.2 then (x.1.1, (none : Cell)) else x.1) = Prod.fst ∘ Prod.fst := by
    funext x
    simp only [Function.comp_apply]
    split <;> rfl
  rw [this, ← List.map_map, List.map_fst_zip hl]

theorem NN.rect {K : List (Int × Cell)} (h : NN K) (hs : (K.map Prod.fst).Pairwise (· < ·)) {p : Int}
    (hp : ∀ t ∈ K.map Prod.fst, p ≤ t) : NN (rectTerms p K) := by
  induction K generalizing p with
  | nil => exact h
  | cons r K ih =>
    obtain ⟨u, x⟩ := r
    obtain ⟨hu, hs'⟩ := List.pairwise_cons.mp hs
    refine NN.cons ?_ (ih h.tail hs' fun t ht => (hu t ht).le)
    intro v hv
    cases x with
    | none => cases hv
    | some y =>
      simp only [Option.map_some, Option.some.injEq] at hv
      rw [← hv]
      have : (p : ℚ) ≤ u := by exact_mod_cast hp u List.mem_cons_self
      exact mul_nonneg (h.head y rfl) (div_nonneg (by linarith) (by norm_num [hourNs]))

theorem NN.trap {K : List (Int × Cell)} (h : NN K) (hs : (K.map Prod.fst).Pairwise (· < ·)) {q : Int × Cell}
    (hp : ∀ t ∈ K.map Prod.fst, q.1 ≤ t) (hq : ∀ v, q.2 = some v → 0 ≤ v) : NN (trapTerms q K) := by
  induction K generalizing q with
  | nil => obtain ⟨a, b⟩ := q; exact h
  | cons r K ih =>
    obtain ⟨u, x⟩ := r
    obtain ⟨a, b⟩ := q
    obtain ⟨hu, hs'⟩ := List.pairwise_cons.mp hs
    refine NN.cons ?_ (ih (q := (u, x)) h.tail hs' (fun t ht => (hu t ht).le) h.head)
    intro v hv
    cases x with
    | none => cases hv
    | some y =>
      cases b with
      | none => cases hv
      | some z =>
        simp only [cellOp, Option.some.injEq] at hv
        rw [← hv]
        have : (a : ℚ) ≤ u := by exact_mod_cast hp u List.mem_cons_self
        have h1 := h.head y rfl
        have h2 := hq z rfl
        exact mul_nonneg (by linarith) (div_nonneg (by linarith) (by norm_num [hourNs]))

theorem sumMinCount1_nonneg {l : List Cell} (h : ∀ v, some v ∈ l → 0 ≤ v) :
    ∀ v, sumMinCount1 l = some v → 0 ≤ v := by
  have h' : ∀ v ∈ valids l, 0 ≤ v := by
    intro v hv
    obtain ⟨x, hx, e⟩ := List.mem_filterMap.mp hv
    simp only [id_eq] at e
    exact h v (e ▸ hx)
  intro v hv
  unfold sumMinCount1 at hv
  cases hl : valids l with
  | nil => rw [hl] at hv; cases hv
  | cons a m =>
    rw [hl] at hv h'
    simp only [Option.some.injEq] at hv
    rw [← hv]
    exact List.sum_nonneg h'

theorem NN.bin {T : List (Int × Cell)} (h : NN T) (labels : List Int) (f : Int) :
    NN ((labels.map fun L => (L, sumMinCount1 ((T.filter
      fun r => decide (L - f < r.1 ∧ r.1 ≤ L)).map Prod.snd))).tail) := by
  intro t v hv
  obtain ⟨L, -, e⟩ := List.mem_map.mp (List.mem_of_mem_tail hv)
  simp only [Prod.mk.injEq] at e
  refine sumMinCount1_nonneg ?_ v e.2
  intro x hx
  obtain ⟨⟨u, c⟩, hr, rfl⟩ := List.mem_map.mp hx
  exact h u x (List.mem_filter.mp hr).1

theorem NN.interpolate {ts : Series} (h : NN ts) {target : List Int} {maxTd : Option ℚ} {out : List (Int × Cell)}
    (ho : interpolateSeries ts target maxTd = .ok out) : NN out := by
  unfold interpolateSeries at ho
  dsimp only at ho
  split_ifs at ho with hnd
  simp only [Except.ok.injEq] at ho
  rw [← ho]
  apply NN.map_lookup
  refine NN.interp ?_ ?_ (by intro a v e; cases e)
  · have hd := h.dropna
    intro t v hv
    obtain ⟨r, -, e⟩ := List.mem_map.mp hv
    simp only [Prod.mk.injEq] at e
    exact hd.lookup r.1 v e.2
  · rw [List.map_map]
    have hk : (Prod.fst ∘ fun r : Int × Cell => (r.1, lookupK (toSeries (Verif.dropna ts)) r.1)) = Prod.fst := rfl
    rw [hk]
    have hsub : ∀ (l : List (Int × Cell)) (q : Int × Cell → Bool), ((l.filter q).map Prod.fst).Sublist (l.map Prod.fst) :=
      fun l q => List.filter_sublist.map _
    refine List.Pairwise.sublist (hsub _ _) ?_
    rw [List.map_map]
    have hk2 : (Prod.fst ∘ fun r : Int × Cell => if r.1 ∈ (Verif.dropna ts).map Prod.fst then (r.1, some 0) else r) = Prod.fst := by
      funext r
      simp only [Function.comp_apply]
      split <;> rfl
    rw [hk2]
    have := keys_bfillK (reindexK (gaps ((Verif.dropna ts).map Prod.fst)) (sortedUnion ((Verif.dropna ts).map Prod.fst ++ target)))
    unfold keys at this
    rw [this, reindexK, List.map_map]
    have hk3 : (Prod.fst ∘ fun t : Int => (t, lookupK (gaps ((Verif.dropna ts).map Prod.fst)) t)) = id := rfl
    rw [hk3, List.map_id]
    exact sortedUnion_sorted _

theorem NN.aggregate {ts : Series} (h : NN ts) {f : Int} {m : ℚ} {ty : PowerType} {out : List (Int × Cell)}
    (ho : aggregate ts f m ty = .ok out) : NN out := by
  unfold Verif.aggregate at ho
  cases hk : ts.map Prod.fst with
  | nil => rw [hk] at ho; cases ho
  | cons t0 trest =>
    rw [hk] at ho
    dsimp only at ho
    have hd := h.dropna
    cases hdn : Verif.dropna ts with
    | nil => rw [hdn] at ho; cases ho
    | cons d0 dl =>
      rw [hdn] at ho hd
      obtain ⟨d0, v0⟩ := d0
      dsimp only at ho
      generalize hU : sortedUnion (t0 :: trest ++ rightLabels t0 ((t0 :: trest).getLastD t0) f) = U at ho
      have hUs : U.Pairwise (· < ·) := hU ▸ sortedUnion_sorted _
      have hv : NN (reindexK (toSeries ((d0, v0) :: dl)) U) := hd.map_lookup U
      have hvk : (reindexK (toSeries ((d0, v0) :: dl)) U).map Prod.fst = U := by
        rw [reindexK, List.map_map]
        have : (Prod.fst ∘ fun t : Int => (t, lookupK (toSeries ((d0, v0) :: dl)) t)) = id := rfl
        rw [this, List.map_id]
      have hlen : ∀ g : Int × Cell → Bool,
          U.length ≤ ((reindexBfill (gaps (((d0, v0) :: dl).map Prod.fst)) U).map g).length := by
        intro g; simp [reindexBfill]
      generalize hM : (reindexBfill (gaps (((d0, v0) :: dl).map Prod.fst)) U).map _ = mask at ho
      have hlen : U.length ≤ mask.length := by rw [← hM]; exact hlen _
      cases ty with
      | other => cases ho
      | instantaneous =>
        dsimp only at ho
        have h1 : NN (interpFrom none (reindexK (toSeries ((d0, v0) :: dl)) U)) :=
          hv.interp (by rw [hvk]; exact hUs) (by intro a v e; cases e)
        have h2 := h1.filterMask mask
        have hik : (interpFrom none (reindexK (toSeries ((d0, v0) :: dl)) U)).map Prod.fst = U := by
          have := keys_interpFrom none (reindexK (toSeries ((d0, v0) :: dl)) U)
          unfold keys at this
          rw [this, hvk]
        have hil : (interpFrom none (reindexK (toSeries ((d0, v0) :: dl)) U)).length = U.length := by
          rw [← List.length_map (f := Prod.fst), hik]
        have h3 := keys_filterMask (K := interpFrom none (reindexK (toSeries ((d0, v0) :: dl)) U)) (mask := mask)
          (by rw [hil]; exact hlen)
        rw [hik] at h3
        cases hV : ((interpFrom none (reindexK (toSeries ((d0, v0) :: dl)) U)).zip mask).map
            (fun x => if x.2 then (x.1.1, none) else x.1) with
        | nil => rw [hV] at ho; cases ho
        | cons r V =>
          rw [hV] at ho h2 h3
          simp only [Except.ok.injEq] at ho
          rw [← ho]
          have hs : ((r :: V).map Prod.fst).Pairwise (· < ·) := by rw [h3]; exact hUs
          obtain ⟨s1, s2⟩ := List.pairwise_cons.mp hs
          exact (NN.cons (by intro v e; cases e) (NN.trap h2.tail s2 (fun t ht => (s1 t ht).le)
            (fun v e => h2 r.1 v (by rw [← e]; exact List.mem_cons_self)))).bin _ _
      | rightLabeled =>
        dsimp only at ho
        have h1 : NN (bfillK (reindexK (toSeries ((d0, v0) :: dl)) U)) := hv.bfill
        have h2 := h1.filterMask mask
        have hik : (bfillK (reindexK (toSeries ((d0, v0) :: dl)) U)).map Prod.fst = U := by
          have := keys_bfillK (reindexK (toSeries ((d0, v0) :: dl)) U)
          unfold keys at this
          rw [this, hvk]
        have hil : (bfillK (reindexK (toSeries ((d0, v0) :: dl)) U)).length = U.length := by
          rw [← List.length_map (f := Prod.fst), hik]
        have h3 := keys_filterMask (K := bfillK (reindexK (toSeries ((d0, v0) :: dl)) U)) (mask := mask)
          (by rw [hil]; exact hlen)
        rw [hik] at h3
        cases hV : ((bfillK (reindexK (toSeries ((d0, v0) :: dl)) U)).zip mask).map
            (fun x => if x.2 then (x.1.1, none) else x.1) with
        | nil => rw [hV] at ho; cases ho
        | cons r V =>
          rw [hV] at ho h2 h3
          simp only [Except.ok.injEq] at ho
          rw [← ho]
          have hs : ((r :: V).map Prod.fst).Pairwise (· < ·) := by rw [h3]; exact hUs
          obtain ⟨s1, s2⟩ := List.pairwise_cons.mp hs
          exact (NN.cons (by intro v e; cases e) (NN.rect h2.tail s2 (fun t ht => (s1 t ht).le))).bin _ _

theorem NN.energy {p : Series} (h : NN p) {tf : Option Int} {maxTd : Option ℚ} {ty : PowerType} {fr : Option Int}
    {out : List (Int × Cell)} (htf : ∀ f, tf = some f → 0 ≤ f) (hfr : ∀ f, fr = some f → 0 ≤ f)
    (ho : energyFromPower p tf maxTd ty fr = .ok out) : NN out := by
  unfold energyFromPower at ho
  split_ifs at ho with hl hty
  · have one : ∀ f : Int, 0 ≤ f → NN (p.map fun r => (r.1, r.2.map fun x => x * f / hourNs)) := by
      intro f hf t v hv
      obtain ⟨⟨u, x⟩, hr, e⟩ := List.mem_map.mp hv
      cases x with
      | none => cases e
      | some y =>
        simp only [Option.map_some, Prod.mk.injEq, Option.some.injEq] at e
        rw [← e.2]
        have hf' : (0 : ℚ) ≤ f := by exact_mod_cast hf
        exact div_nonneg (mul_nonneg (h u y hr) hf') (by norm_num [hourNs])
    cases tf with
    | some f => simp only [Except.ok.injEq] at ho; rw [← ho]; exact one f (htf f rfl)
    | none =>
      cases fr with
      | none => cases ho
      | some f => simp only [Except.ok.injEq] at ho; rw [← ho]; exact one f (hfr f rfl)
  · dsimp only at ho
    cases hm : median (valids ((tStepNs (p.map Prod.fst)).map Prod.snd)) with
    | none => rw [hm] at ho; cases ho
    | some g =>
      rw [hm] at ho
      dsimp only at ho
      have rest : ∀ p' : Series, NN p' → ((Verif.aggregate p' (tf.getD ⌊g⌋) (maxTd.getD g) ty).bind
          fun energy => Except.ok (energy.map fun r =>
            if cellCmp (fun a b => decide (a > b)) (firstLabelGe (tStepNs (p.map Prod.fst)) r.1)
              (some (maxTd.getD g)) then (r.1, none) else r)) = .ok out → NN out := by
        intro p' hp' ho
        cases ha : Verif.aggregate p' (tf.getD ⌊g⌋) (maxTd.getD g) ty with
        | error e => rw [ha] at ho; cases ho
        | ok E =>
          rw [ha] at ho
          simp only [Except.bind, Except.ok.injEq] at ho
          rw [← ho]
          have hE := hp'.aggregate ha
          intro t v hv
          obtain ⟨r, hr, e⟩ := List.mem_map.mp hv
          split at e
          · cases e
          · exact hE t v (e ▸ hr)
      split_ifs at ho
      · cases hi : interpolateSeries p (dateRange ((p.map Prod.fst).headD 0) ((p.map Prod.fst).getLastD 0)
          (tf.getD ⌊g⌋)) (some (maxTd.getD g)) with
        | error e => rw [hi] at ho; cases ho
        | ok p' =>
          rw [hi] at ho
          exact rest p' (h.interpolate hi) ho
      · exact rest p h ho

end Verif.Linear
