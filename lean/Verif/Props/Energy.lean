import Verif.Lemmas.Filtering
import Verif.Lemmas.EnergyApi
import Verif.Props.Interpolate

/-! # Properties C05, C06 (energy_from_power) -/

namespace Verif
open Spec

theorem valids_gaps_list (l : List Int) :
    valids ((gaps l).map Prod.snd) = List.zipWith (fun a b : Int => (b : ℚ) - a) l l.tail := by
  cases l with
  | nil => rfl
  | cons p l =>
    have : ∀ p, valids ((gapsFrom p l).map Prod.snd) =
        List.zipWith (fun a b : Int => (b : ℚ) - a) (p :: l) l := by
      induction l with
      | nil => intro p; rfl
      | cons t l ih =>
        intro p
        have := ih t
        simp only [valids, gapsFrom, List.map_cons] at this ⊢
        simp only [List.zipWith_cons_cons]
        rw [← this]
        rfl
    simpa [gaps, valids] using this p

theorem longStep_mask {ts : Series} (hs : StrictSorted (keys ts)) (m : ℚ) (L : Int) :
    cellCmp (fun a b => decide (a > b)) (firstLabelGe (tStepNs (ts.map Prod.fst)) L) (some m) = true
      ↔ InLongStep ts m L := by
  unfold tStepNs InLongStep
  constructor
  · intro h
    cases hg : firstLabelGe (gaps (ts.map Prod.fst)) L with
    | none => rw [hg] at h; simp [cellCmp] at h
    | some g =>
      rw [hg] at h
      obtain ⟨a, b, hadj, h1, h2, rfl⟩ := (firstLabelGe_gaps hs).mp hg
      exact ⟨(a, b), adjacent_zip.mp hadj, h1, h2, by simpa [cellCmp] using h⟩
  · rintro ⟨⟨a, b⟩, hab, h1, h2, h3⟩
    rw [(firstLabelGe_gaps hs).mpr ⟨a, b, adjacent_zip.mpr hab, h1, h2, rfl⟩]
    simpa [cellCmp] using h3

/-- The labels `t0+f, t0+2f, …` up to the first one that reaches `tn`. -/
theorem mem_labels_tail {t0 tn f : Int} (hf : 0 < f) (h : t0 ≤ tn) {L : Int} :
    L ∈ (rightLabels t0 tn f).tail ↔ ∃ k : Nat, L = t0 + (k + 1) * f ∧ L - f < tn := by
  unfold rightLabels
  have hq0 : 0 ≤ (tn - t0 + f - 1) / f := Int.ediv_nonneg (by omega) hf.le
  obtain ⟨n, hn⟩ : ∃ n : Nat, (tn - t0 + f - 1) / f = n := ⟨_, (Int.toNat_of_nonneg hq0).symm⟩
  have hk : ∀ k : Nat, k < n ↔ t0 + k * f < tn := by
    intro k
    have h1 : ((k : Int) + 1 ≤ (tn - t0 + f - 1) / f) ↔ ((k : Int) + 1) * f ≤ tn - t0 + f - 1 :=
      Int.le_ediv_iff_mul_le hf
    rw [hn] at h1
    have h2 : ((k : Int) + 1) * f = k * f + f := by ring
    rw [h2] at h1
    omega
  rw [hn, show ((n : Int) + 1).toNat = n + 1 by omega, List.range_succ_eq_map]
  simp only [List.map_cons, List.map_map, List.tail_cons, List.mem_map, List.mem_range,
    Function.comp_apply]
  constructor
  · rintro ⟨k, hkn, rfl⟩
    refine ⟨k, by push_cast; ring, ?_⟩
    have := (hk k).mp hkn
    have e : t0 + ((k.succ : Nat) : Int) * f - f = t0 + k * f := by push_cast; ring
    omega
  · rintro ⟨k, rfl, hlt⟩
    refine ⟨k, (hk k).mpr ?_, by push_cast; ring⟩
    have e : t0 + ((k : Int) + 1) * f - f = t0 + k * f := by ring
    omega

/-- `energy_from_power` when the target period is longer than the median step. -/
theorem energy_coarse {power : Series} {f : Int} {m g : ℚ} {ty : PowerType} {fr : Option Int}
    (hlen : 2 ≤ power.length) (hs : StrictSorted (keys power))
    (hg : median (indexSteps power) = some g) (hgf : g < f)
    {out : List (Int × Cell)} (h : aggregate power f m ty = .ok out) :
    energyFromPower power (some f) (some m) ty fr = .ok (out.map fun r =>
      if InLongStep power m r.1 then (r.1, none) else r) := by
  unfold energyFromPower
  rw [if_neg (by omega)]
  dsimp only
  have hg' : median (valids ((tStepNs (power.map Prod.fst)).map Prod.snd)) = some g := by
    unfold tStepNs; rw [valids_gaps_list]; exact hg
  rw [hg']
  dsimp only [Option.getD]
  rw [if_neg (not_le.mpr hgf)]
  simp only [Except.bind, h]
  congr 1
  apply List.map_congr_left
  intro r _
  by_cases hL : InLongStep power m r.1
  · rw [if_pos hL, if_pos ((longStep_mask hs m r.1).mpr hL)]
  · rw [if_neg hL, if_neg (fun hc => hL ((longStep_mask hs m r.1).mp hc))]

theorem validRows_eq (ts : Series) : validRows ts = dropna ts := rfl

/-- **C05 (right-labeled, coarser period).** For every series with increasing timestamps and at
least one valid sample, every gap limit `m` and every period `f` longer than the median step,
`energy_from_power` returns one value per period `(L-f, L]` following the first timestamp; it is
the sum of power × time over the parts of the period that lie in an interval of at most `m` between
consecutive valid samples; it is NaN if no such part exists or if the period ends inside an index
step longer than `m`. -/
theorem C05_right_labeled {power : Series} (hs : Increasing power) (hlen : 2 ≤ power.length)
    (hv : ∃ t v, ValidAt power t v) {f : Int} (hf : 0 < f) {g : ℚ}
    (hg : IsMedian (indexSteps power) g) (hgf : g < f) (m : ℚ) (fr : Option Int)
    {t0 tn : Int} (h0 : (power.map Prod.fst).head? = some t0)
    (hn : (power.map Prod.fst).getLast? = some tn) :
    ∃ out, energyFromPower power (some f) (some m) .rightLabeled fr = .ok out ∧
      (∀ L, L ∈ out.map Prod.fst ↔ ∃ k : Nat, L = t0 + (k + 1) * f ∧ L - f < tn) ∧
      ∀ L e, (L, e) ∈ out → e = if InLongStep power m L then none
        else total (rectContributions m (L - f) L (validRows power)) := by
  rw [isMedian_iff] at hg
  have hd : dropna power ≠ [] := by
    obtain ⟨t, v, h⟩ := hv
    exact List.ne_nil_of_mem (mem_dropna.mpr h)
  have h0n : t0 ≤ tn := by
    have hs' : StrictSorted (power.map Prod.fst) := hs
    generalize power.map Prod.fst = l at h0 hn hs'
    cases l with
    | nil => simp at h0
    | cons a l =>
      simp only [List.head?_cons, Option.some.injEq] at h0
      subst h0
      have := List.mem_of_getLast? hn
      rcases List.mem_cons.mp this with h | h
      · omega
      · exact ((List.pairwise_cons.mp hs').1 tn h).le
  refine ⟨_, energy_coarse hlen hs hg hgf (aggregate_right hs hf m h0 hn hd), ?_, ?_⟩
  · intro L
    rw [← mem_labels_tail hf h0n]
    simp only [List.map_map]
    constructor
    · intro h
      obtain ⟨L', hL', he⟩ := List.mem_map.mp h
      simp only [Function.comp_apply] at he
      split at he <;> (subst he; exact hL')
    · intro h
      refine List.mem_map.mpr ⟨L, h, ?_⟩
      simp only [Function.comp_apply]
      split <;> rfl
  · intro L e h
    simp only [List.map_map, List.mem_map, Function.comp_apply] at h
    obtain ⟨L', hL', he⟩ := h
    by_cases hlong : InLongStep power m L'
    · rw [if_pos hlong] at he
      cases he
      rw [if_pos hlong]
    · rw [if_neg hlong] at he
      cases he
      rw [if_neg hlong]; rfl

/-- without valid samples there is no energy series: the code indexes the first valid sample -/
theorem C05_all_missing {power : Series} (hlen : 2 ≤ power.length)
    (hnone : ∀ r ∈ power, r.2 = none) {f : Int} {g : ℚ}
    (hg : IsMedian (indexSteps power) g) (hgf : g < f) (m : ℚ) (ty : PowerType)
    (fr : Option Int) : energyFromPower power (some f) (some m) ty fr = .error .indexError := by
  rw [isMedian_iff] at hg
  unfold energyFromPower
  rw [if_neg (by omega)]
  dsimp only
  have hg' : median (valids ((tStepNs (power.map Prod.fst)).map Prod.snd)) = some g := by
    unfold tStepNs; rw [valids_gaps_list]; exact hg
  rw [hg']
  dsimp only [Option.getD]
  rw [if_neg (not_le.mpr hgf)]
  have hd : dropna power = [] := by
    unfold dropna
    rw [List.filterMap_eq_nil_iff]
    intro r hr; rw [hnone r hr]; rfl
  simp only [Except.bind]
  have : aggregate power f m ty = .error .indexError := by
    unfold aggregate
    cases power.map Prod.fst with
    | nil => rfl
    | cons a l => dsimp only; rw [hd]
  rw [this]

/-- rows of `trapTerms` whose right value is missing are missing -/
theorem trapTerms_none {q : Int × Cell} {l : List (Int × Cell)} {t : Int} {c : Cell}
    (h : (t, c) ∈ trapTerms q l) (hn : ∀ w, (t, w) ∈ l → w = none) : c = none := by
  induction l generalizing q with
  | nil => cases q; simp [trapTerms] at h
  | cons s l ih =>
    obtain ⟨a, b⟩ := s
    obtain ⟨p, e⟩ := q
    simp only [trapTerms, List.mem_cons, Prod.mk.injEq] at h
    rcases h with ⟨rfl, rfl⟩ | h
    · have := hn b (by simp)
      subst this; rfl
    · exact ih h (fun w hw => hn w (List.mem_cons_of_mem _ hw))

theorem rectTerms_none {q : Int} {l : List (Int × Cell)} {t : Int} {c : Cell}
    (h : (t, c) ∈ rectTerms q l) (hn : ∀ w, (t, w) ∈ l → w = none) : c = none := by
  induction l generalizing q with
  | nil => simp [rectTerms] at h
  | cons s l ih =>
    obtain ⟨a, b⟩ := s
    simp only [rectTerms, List.mem_cons, Prod.mk.injEq] at h
    rcases h with ⟨rfl, rfl⟩ | h
    · have := hn b (by simp)
      subst this; rfl
    · exact ih h (fun w hw => hn w (List.mem_cons_of_mem _ hw))

theorem sumMinCount1_none {l : List Cell} (h : ∀ c ∈ l, c = none) : sumMinCount1 l = none := by
  unfold sumMinCount1
  have : valids l = [] := by
    unfold valids
    rw [List.filterMap_eq_nil_iff]
    intro c hc; rw [h c hc]; rfl
  rw [this]

/-- A period that lies inside an over-long interval between valid samples carries no energy. -/
theorem aggregate_gap {ts : Series} (hs : StrictSorted (keys ts)) {f : Int} {m : ℚ}
    {ty : PowerType} {out : List (Int × Cell)} (h : aggregate ts f m ty = .ok out)
    {a b : Int} {va vb : ℚ} (hadj : Adjacent (dropna ts) (a, va) (b, vb)) (hgap : m < (b : ℚ) - a)
    {L : Int} {e : Cell} (hL : (L, e) ∈ out) (h1 : a ≤ L - f) (h2 : L ≤ b) : e = none := by
  have hds := dropna_sorted hs
  have hadjk : Adjacent (keys (dropna ts)) a b := adjacent_keys.mpr ⟨va, vb, hadj⟩
  unfold aggregate at h
  cases hk : ts.map Prod.fst with
  | nil => rw [hk] at h; cases h
  | cons t0 trest =>
    rw [hk] at h
    dsimp only at h
    generalize sortedUnion (t0 :: trest ++ rightLabels t0 ((t0 :: trest).getLastD t0) f) = U at h
    generalize rightLabels t0 ((t0 :: trest).getLastD t0) f = labels at h
    generalize hd : dropna ts = d at *
    cases d with
    | nil => cases h
    | cons r l =>
      obtain ⟨d0, v0⟩ := r
      dsimp only at h
      -- masked rows are missing
      have hmask : ∀ (F : List (Int × Cell)), F.map Prod.fst = U → ∀ u w, a < u → u ≤ b →
          (u, w) ∈ (F.zip ((reindexBfill (gaps (List.map Prod.fst ((d0, v0) :: l))) U).map fun r =>
            cellCmp (fun a b => decide (a > b)) r.2 (some m) ||
              (decide (d0 ≠ U.headD d0) && decide (r.1 ≤ d0)))).map
            (fun x => if x.2 = true then (x.1.1, none) else x.1) → w = none := by
        intro F hF u w hau hub hw
        generalize U.headD d0 = hd0 at hw
        clear h
        induction F generalizing U with
        | nil => simp at hw
        | cons s F ih =>
          cases U with
          | nil => simp at hF
          | cons z U =>
            simp only [List.map_cons, List.cons.injEq] at hF
            simp only [reindexBfill, List.map_cons, List.zip_cons_cons, List.mem_cons] at hw
            rcases hw with hw | hw
            · split at hw
              · cases hw; rfl
              · next hc =>
                exfalso
                apply hc
                have hz : z = u := by rw [← hF.1, ← hw]
                have hfl := (firstLabelGe_gaps hds).mpr ⟨a, b, hadjk, hau, hub, rfl⟩
                simp only [keys, List.map_cons] at hfl
                rw [hz, hfl]
                simp [cellCmp, hgap]
            · exact ih U hF.2 (by simpa [reindexBfill] using hw)
      have hkR : keys (reindexK (toSeries ((d0, v0) :: l)) U) = U := keys_reindexK _ _
      cases ty with
      | other => cases h
      | instantaneous =>
        dsimp only at h
        have hm := hmask (interpFrom none (reindexK (toSeries ((d0, v0) :: l)) U))
          (by have := keys_interpFrom none (reindexK (toSeries ((d0, v0) :: l)) U)
              rw [hkR] at this; exact this)
        generalize (List.zip (interpFrom none (reindexK (toSeries ((d0, v0) :: l)) U)) _).map _ = V at h hm
        cases V with
        | nil => cases h
        | cons r V =>
          dsimp only at h
          cases h
          have hL' := List.mem_of_mem_tail hL
          obtain ⟨L', _, hLe⟩ := List.mem_map.mp hL'
          cases hLe
          apply sumMinCount1_none
          intro c hc
          obtain ⟨⟨u, c'⟩, hu, rfl⟩ := List.mem_map.mp hc
          obtain ⟨hu1, hu2⟩ := List.mem_filter.mp hu
          simp only [decide_eq_true_eq] at hu2
          rcases List.mem_cons.mp hu1 with h' | h'
          · cases h'; rfl
          · exact trapTerms_none h' (fun w hw => hm u w (by omega) (by omega)
              (List.mem_cons_of_mem _ hw))
      | rightLabeled =>
        dsimp only at h
        have hm := hmask (bfillK (reindexK (toSeries ((d0, v0) :: l)) U))
          (by have := keys_bfillK (reindexK (toSeries ((d0, v0) :: l)) U)
              rw [hkR] at this; exact this)
        generalize (List.zip (bfillK (reindexK (toSeries ((d0, v0) :: l)) U)) _).map _ = V at h hm
        cases V with
        | nil => cases h
        | cons r V =>
          dsimp only at h
          cases h
          have hL' := List.mem_of_mem_tail hL
          obtain ⟨L', _, hLe⟩ := List.mem_map.mp hL'
          cases hLe
          apply sumMinCount1_none
          intro c hc
          obtain ⟨⟨u, c'⟩, hu, rfl⟩ := List.mem_map.mp hc
          obtain ⟨hu1, hu2⟩ := List.mem_filter.mp hu
          simp only [decide_eq_true_eq] at hu2
          rcases List.mem_cons.mp hu1 with h' | h'
          · cases h'; rfl
          · exact rectTerms_none h' (fun w hw => hm u w (by omega) (by omega)
              (List.mem_cons_of_mem _ hw))

/-- **C05 (gaps).** For both power types: a period that lies inside an interval longer than
`max_timedelta` between consecutive valid samples is reported as NaN. -/
theorem C05_gap_is_nan {power : Series} (hs : Increasing power) (hlen : 2 ≤ power.length)
    {f : Int} {g : ℚ} (hg : IsMedian (indexSteps power) g) (hgf : g < f) {m : ℚ}
    {ty : PowerType} {fr : Option Int} {out : List (Int × Cell)}
    (h : energyFromPower power (some f) (some m) ty fr = .ok out)
    {a b : Int} {va vb : ℚ} (hab : Consecutive power a va b vb) (hgap : m < (b : ℚ) - a)
    {L : Int} {e : Cell} (hL : (L, e) ∈ out) (h1 : a ≤ L - f) (h2 : L ≤ b) : e = none := by
  rw [isMedian_iff] at hg
  cases hagg : aggregate power f m ty with
  | error err =>
    exfalso
    unfold energyFromPower at h
    rw [if_neg (by omega)] at h
    dsimp only at h
    have hg' : median (valids ((tStepNs (power.map Prod.fst)).map Prod.snd)) = some g := by
      unfold tStepNs; rw [valids_gaps_list]; exact hg
    rw [hg'] at h
    dsimp only [Option.getD] at h
    rw [if_neg (not_le.mpr hgf)] at h
    simp only [Except.bind, hagg] at h
    cases h
  | ok o =>
    rw [energy_coarse hlen hs hg hgf hagg] at h
    cases h
    obtain ⟨⟨L', e'⟩, hm, he⟩ := List.mem_map.mp hL
    split at he
    · cases he; rfl
    · cases he
      exact aggregate_gap hs hagg ((consecutive_iff hs).mp hab) hgap hm h1 h2

/-- **C06 (instantaneous, gap-free).** With no missing samples and no step above the limit, the
energy of each period is the integral over the period of the broken line through the samples –
continued by the last value up to the end of the last period. -/
theorem C06_instantaneous_integral {power : Series} (hs : Increasing power)
    (hlen : 2 ≤ power.length) (hnn : ∀ r ∈ power, r.2 ≠ none) {f : Int} (hf : 0 < f) {g m : ℚ}
    (hg : IsMedian (indexSteps power) g) (hgf : g < f)
    (hgap : ∀ s ∈ indexSteps power, s ≤ m) (fr : Option Int)
    {t0 tn : Int} (h0 : (power.map Prod.fst).head? = some t0)
    (hn : (power.map Prod.fst).getLast? = some tn) :
    ∃ out, energyFromPower power (some f) (some m) .instantaneous fr = .ok out ∧
      (∀ L, L ∈ out.map Prod.fst ↔ ∃ k : Nat, L = t0 + (k + 1) * f ∧ L - f < tn) ∧
      ∀ L e, (L, e) ∈ out → e = some (trapIntegral (L - f) L (validRows power)) := by
  rw [isMedian_iff] at hg
  have hkeys : keys (dropna power) = keys power := by
    clear hs hlen hg hgf hgap h0 hn
    induction power with
    | nil => rfl
    | cons r l ih =>
      obtain ⟨t, c⟩ := r
      cases c with
      | none => exact absurd rfl (hnn (t, none) (by simp))
      | some v =>
        have := ih (fun r hr => hnn r (List.mem_cons_of_mem _ hr))
        simp only [keys, dropna, List.filterMap_cons, Option.map_some, List.map_cons] at this ⊢
        rw [this]
  have hstep : ∀ a b, Adjacent (keys power) a b → (b : ℚ) - a ≤ m := by
    intro a b hab
    apply hgap
    have := adjacent_zip.mp hab
    unfold indexSteps
    rw [← List.map_uncurry_zip_eq_zipWith]
    exact List.mem_map.mpr ⟨(a, b), this, rfl⟩
  have h0n : t0 ≤ tn := by
    have hs' : StrictSorted (power.map Prod.fst) := hs
    generalize power.map Prod.fst = l at h0 hn hs'
    cases l with
    | nil => simp at h0
    | cons a l =>
      simp only [List.head?_cons, Option.some.injEq] at h0
      subst h0
      have := List.mem_of_getLast? hn
      rcases List.mem_cons.mp this with h | h
      · omega
      · exact ((List.pairwise_cons.mp hs').1 tn h).le
  have hagg := aggregate_inst hs hf m h0 hn (by rw [hkeys]; exact h0) (by rw [hkeys]; exact hstep)
  have hnl : ∀ L, ¬ InLongStep power m L := by
    rintro L ⟨⟨a, b⟩, hab, _, _, h⟩
    have := hstep a b (adjacent_zip.mpr hab)
    simp only at h; linarith
  refine ⟨_, energy_coarse hlen hs hg hgf hagg, ?_, ?_⟩
  · intro L
    rw [← mem_labels_tail hf h0n]
    simp only [List.map_map]
    constructor
    · intro h
      obtain ⟨L', hL', he⟩ := List.mem_map.mp h
      simp only [Function.comp_apply] at he
      split at he <;> (subst he; exact hL')
    · intro h
      refine List.mem_map.mpr ⟨L, h, ?_⟩
      simp only [Function.comp_apply]
      split <;> rfl
  · intro L e h
    simp only [List.map_map, List.mem_map, Function.comp_apply] at h
    obtain ⟨L', _, he⟩ := h
    rw [if_neg (hnl L')] at he
    cases he; rfl

/-! ## conservation -/

theorem sum_contributions_range (m : ℚ) (t0 f : Int) (hf : 0 < f) (d : List (Int × ℚ)) (n : Nat) :
    ((List.range n).map fun k : Nat =>
      (rectContributions m (t0 + k * f) (t0 + (k + 1) * f) d).sum).sum =
      (rectContributions m t0 (t0 + n * f) d).sum := by
  induction n with
  | zero => simp [rectContributions_self]
  | succ n ih =>
    rw [List.range_succ, List.map_append, List.sum_append, ih]
    have h1 : t0 ≤ t0 + (n : Int) * f := by
      have : 0 ≤ (n : Int) * f := mul_nonneg (Int.natCast_nonneg n) hf.le
      omega
    have h2 : t0 + (n : Int) * f ≤ t0 + ((n : Int) + 1) * f := by
      have : ((n : Int) + 1) * f = n * f + f := by ring
      omega
    push_cast
    rw [(rectContributions_add m h1 h2 d).1]
    simp

theorem labels_tail_eq {t0 tn f : Int} (hf : 0 < f) (h : t0 ≤ tn) :
    ∃ n : Nat, (rightLabels t0 tn f).tail = (List.range n).map (fun k : Nat => t0 + ((k : Int) + 1) * f) ∧
      tn ≤ t0 + n * f := by
  unfold rightLabels
  have hq0 : 0 ≤ (tn - t0 + f - 1) / f := Int.ediv_nonneg (by omega) hf.le
  obtain ⟨n, hn⟩ : ∃ n : Nat, (tn - t0 + f - 1) / f = n := ⟨_, (Int.toNat_of_nonneg hq0).symm⟩
  refine ⟨n, ?_, ?_⟩
  · rw [hn, show ((n : Int) + 1).toNat = n + 1 by omega, List.range_succ_eq_map]
    simp only [List.map_cons, List.map_map, List.tail_cons]
    apply List.map_congr_left
    intro k _
    simp only [Function.comp_apply]; push_cast; ring
  · have h1 := Int.lt_ediv_add_one_mul_self (tn - t0 + f - 1) hf
    rw [hn] at h1
    have : ((n : Int) + 1) * f = n * f + f := by ring
    omega

theorem contributions_all {m : ℚ} {x y : Int} {d : List (Int × ℚ)} (hs : StrictSorted (keys d))
    (hx : ∀ k ∈ keys d, x ≤ k) (hy : ∀ k ∈ keys d, k ≤ y)
    (hg : ∀ a b, Adjacent (keys d) a b → (b : ℚ) - a ≤ m) :
    (rectContributions m x y d).sum = rectEnergy d := by
  induction d with
  | nil => rfl
  | cons r d ih =>
    cases d with
    | nil => rfl
    | cons s d =>
      obtain ⟨a, va⟩ := r
      obtain ⟨b, vb⟩ := s
      have hab : a < b := (List.pairwise_cons.mp hs).1 b (by simp)
      have hxa := hx a (by simp [keys])
      have hyb := hy b (by simp [keys])
      have hov : overlap a b x y = b - a := by unfold overlap; omega
      simp only [rectContributions, rectEnergy, List.sum_append]
      rw [ih (List.pairwise_cons.mp hs).2 (fun k hk => hx k (List.mem_cons_of_mem _ hk))
        (fun k hk => hy k (List.mem_cons_of_mem _ hk))
        (fun p q ⟨l1, l2, e⟩ => hg p q ⟨a :: l1, l2, by
          simp only [keys, List.map_cons] at e ⊢; rw [e]; rfl⟩)]
      rw [if_pos ⟨hg a b ⟨[], keys d, rfl⟩, by omega⟩, hov]
      push_cast; simp

theorem contributions_ne_nil {m : ℚ} {x y : Int} (hxy : x < y) {d : List (Int × ℚ)}
    {a : Int} {va : ℚ} {l : List (Int × ℚ)} (hd : d = (a, va) :: l) (hax : a ≤ x)
    {k : Int} (hk : k ∈ keys d) (hxk : x < k)
    (hg : ∀ a b, Adjacent (keys d) a b → (b : ℚ) - a ≤ m) : rectContributions m x y d ≠ [] := by
  induction l generalizing d a va with
  | nil =>
    subst hd
    simp only [keys, List.map_cons, List.map_nil, List.mem_singleton] at hk
    omega
  | cons s l ih =>
    obtain ⟨b, vb⟩ := s
    subst hd
    simp only [rectContributions]
    by_cases hxb : x < b
    · rw [if_pos ⟨hg a b ⟨[], keys l, rfl⟩, by unfold overlap; omega⟩]
      simp
    · intro h
      refine ih rfl (by omega) ?_ ?_ (List.append_eq_nil_iff.mp h).2
      · rcases List.mem_cons.mp hk with h' | h'
        · simp only at h'; omega
        · exact h'
      · rintro p q ⟨l1, l2, e⟩
        exact hg p q ⟨a :: l1, l2, by
          simp only [keys, List.map_cons] at e ⊢; rw [e]; rfl⟩

theorem dropna_keys_eq {power : Series} (hnn : ∀ r ∈ power, r.2 ≠ none) :
    keys (dropna power) = keys power := by
  induction power with
  | nil => rfl
  | cons r l ih =>
    obtain ⟨t, c⟩ := r
    cases c with
    | none => exact absurd rfl (hnn (t, none) (by simp))
    | some v =>
      have := ih (fun r hr => hnn r (List.mem_cons_of_mem _ hr))
      simp only [keys, dropna, List.filterMap_cons, Option.map_some, List.map_cons] at this ⊢
      rw [this]

theorem steps_le {power : Series} {m : ℚ} (hgap : ∀ s ∈ indexSteps power, s ≤ m) :
    ∀ a b, Adjacent (keys power) a b → (b : ℚ) - a ≤ m := by
  intro a b hab
  apply hgap
  have := adjacent_zip.mp hab
  unfold indexSteps
  rw [← List.map_uncurry_zip_eq_zipWith]
  exact List.mem_map.mpr ⟨(a, b), this, rfl⟩

theorem head_le_last {l : List Int} (hs : StrictSorted l) {t0 tn : Int} (h0 : l.head? = some t0)
    (hn : l.getLast? = some tn) : (∀ k ∈ l, t0 ≤ k) ∧ (∀ k ∈ l, k ≤ tn) := by
  constructor
  · cases l with
    | nil => simp at h0
    | cons a l =>
      simp only [List.head?_cons, Option.some.injEq] at h0
      subst h0
      intro k hk
      rcases List.mem_cons.mp hk with h | h
      · omega
      · exact ((List.pairwise_cons.mp hs).1 k h).le
  · obtain ⟨ys, rfl⟩ := List.getLast?_eq_some_iff.mp hn
    intro k hk
    rcases List.mem_append.mp hk with h | h
    · exact ((List.pairwise_append.mp hs).2.2 k h tn (by simp)).le
    · simp only [List.mem_singleton] at h; omega

/-- **C06 (conservation, right-labeled).** Without missing samples and without steps above
`max_timedelta`, no period is NaN and the energies of all periods add up to the energy of the power
series, whatever the alignment of periods and samples. -/
theorem C06_conserved {power : Series} (hs : Increasing power) (hlen : 2 ≤ power.length)
    (hnn : ∀ r ∈ power, r.2 ≠ none) {f : Int} (hf : 0 < f) {g m : ℚ}
    (hg : IsMedian (indexSteps power) g) (hgf : g < f)
    (hgap : ∀ s ∈ indexSteps power, s ≤ m) (fr : Option Int) :
    ∃ out, energyFromPower power (some f) (some m) .rightLabeled fr = .ok out ∧
      (∀ r ∈ out, r.2 ≠ none) ∧
      (out.map fun r => r.2.getD 0).sum = rectEnergy (validRows power) := by
  rw [isMedian_iff] at hg
  have hkeys := dropna_keys_eq hnn
  have hstep := steps_le hgap
  have hne : keys power ≠ [] := by
    intro h
    have := congrArg List.length h
    simp [keys] at this
    rw [this] at hlen; simp at hlen
  obtain ⟨t0, h0⟩ : ∃ t0, (keys power).head? = some t0 := by
    cases hk : keys power with
    | nil => exact absurd hk hne
    | cons a l => exact ⟨a, rfl⟩
  obtain ⟨tn, hn⟩ : ∃ tn, (keys power).getLast? = some tn :=
    ⟨_, List.getLast?_eq_some_getLast hne⟩
  obtain ⟨hb1, hb2⟩ := head_le_last hs h0 hn
  have h0n : t0 ≤ tn := hb1 tn (List.mem_of_getLast? hn)
  have hd : dropna power ≠ [] := by
    intro h; rw [h] at hkeys; exact hne hkeys.symm
  have hagg := aggregate_right hs hf m h0 hn hd
  have hnl : ∀ L, ¬ InLongStep power m L := by
    rintro L ⟨⟨a, b⟩, hab, _, _, h⟩
    have := hstep a b (adjacent_zip.mpr hab)
    simp only at h; linarith
  have hout := energy_coarse (fr := fr) hlen hs hg hgf hagg
  simp only [if_neg (hnl _), List.map_id'] at hout
  refine ⟨_, hout, ?_, ?_⟩
  · intro r hr
    obtain ⟨L, hL, rfl⟩ := List.mem_map.mp hr
    obtain ⟨k, hk, hlt⟩ := (mem_labels_tail hf h0n).mp hL
    obtain ⟨⟨a, va⟩, l, hdl⟩ := List.exists_cons_of_ne_nil hd
    have ha : a = t0 := by
      have := h0
      rw [← hkeys, hdl] at this
      simpa [keys] using this
    have hkf : 0 ≤ (k : Int) * f := mul_nonneg (Int.natCast_nonneg k) hf.le
    have hk' : ((k : Int) + 1) * f = k * f + f := by ring
    have hne' := contributions_ne_nil (m := m) (show L - f < L by omega) hdl (by omega)
      (k := tn) (by rw [hkeys]; exact List.mem_of_getLast? hn) hlt
      (by rw [hkeys]; exact hstep)
    simp only [total, if_neg hne']
    simp
  · obtain ⟨n, hn1, hn2⟩ := labels_tail_eq hf h0n
    have hgetD : ∀ c : List ℚ, (total c).getD 0 = c.sum := by
      intro c; unfold total; split
      · next h => rw [h]; rfl
      · rfl
    rw [List.map_map]
    have e1 : ((fun r : Int × Cell => r.2.getD 0) ∘ fun L =>
        (L, total (rectContributions m (L - f) L (dropna power)))) =
        fun L => (rectContributions m (L - f) L (dropna power)).sum := by
      funext L; simp [hgetD]
    rw [e1, hn1, List.map_map]
    have e2 : ((fun L => (rectContributions m (L - f) L (dropna power)).sum) ∘
        fun k : Nat => t0 + ((k : Int) + 1) * f) = fun k : Nat =>
          (rectContributions m (t0 + k * f) (t0 + (k + 1) * f) (dropna power)).sum := by
      funext k
      simp only [Function.comp_apply]
      rw [show t0 + ((k : Int) + 1) * f - f = t0 + k * f by ring]
    rw [e2, sum_contributions_range m t0 f hf, contributions_all (dropna_sorted hs)]
    · rfl
    · rw [hkeys]; exact hb1
    · rw [hkeys]; intro k hk; exact (hb2 k hk).trans hn2
    · rw [hkeys]; exact hstep

/-- **C06 (splitting a period).** The energy of a period is the sum of the energies of its two
halves (a half lying entirely after the last sample is not reported and counts as 0). -/
theorem C06_split {power : Series} (hs : Increasing power) (hlen : 2 ≤ power.length)
    (hnn : ∀ r ∈ power, r.2 ≠ none) {h : Int} (hh : 0 < h) {g m : ℚ}
    (hg : IsMedian (indexSteps power) g) (hgh : g < h)
    (hgap : ∀ s ∈ indexSteps power, s ≤ m) {fr : Option Int} {out1 out2 : List (Int × Cell)}
    (h1 : energyFromPower power (some h) (some m) .rightLabeled fr = .ok out1)
    (h2 : energyFromPower power (some (2 * h)) (some m) .rightLabeled fr = .ok out2)
    {L : Int} {e : Cell} (hL : (L, e) ∈ out2) :
    ∃ ea eb, (L - h, ea) ∈ out1 ∧
      ((L, eb) ∈ out1 ∨ (eb = none ∧ ∀ t v, ValidAt power t v → t ≤ L - h)) ∧
      e.getD 0 = ea.getD 0 + eb.getD 0 := by
  rw [isMedian_iff] at hg
  have hkeys := dropna_keys_eq hnn
  have hstep := steps_le hgap
  have hne : keys power ≠ [] := by
    intro h
    have := congrArg List.length h
    simp [keys] at this
    rw [this] at hlen; simp at hlen
  obtain ⟨t0, h0⟩ : ∃ t0, (keys power).head? = some t0 := by
    cases hk : keys power with
    | nil => exact absurd hk hne
    | cons a l => exact ⟨a, rfl⟩
  obtain ⟨tn, hn⟩ : ∃ tn, (keys power).getLast? = some tn :=
    ⟨_, List.getLast?_eq_some_getLast hne⟩
  obtain ⟨hb1, hb2⟩ := head_le_last hs h0 hn
  have h0n : t0 ≤ tn := hb1 tn (List.mem_of_getLast? hn)
  have hd : dropna power ≠ [] := by
    intro h; rw [h] at hkeys; exact hne hkeys.symm
  have hnl : ∀ L, ¬ InLongStep power m L := by
    rintro L ⟨⟨a, b⟩, hab, _, _, h⟩
    have := hstep a b (adjacent_zip.mpr hab)
    simp only at h; linarith
  have hg2 : g < ((2 * h : Int) : ℚ) := by
    have : (0 : ℚ) < h := by exact_mod_cast hh
    push_cast; linarith
  rw [energy_coarse hlen hs hg hgh (aggregate_right hs hh m h0 hn hd)] at h1
  rw [energy_coarse hlen hs hg hg2 (aggregate_right hs (by omega) m h0 hn hd)] at h2
  simp only [if_neg (hnl _), List.map_id'] at h1 h2
  cases h1; cases h2
  have hgetD : ∀ c : List ℚ, (total c).getD 0 = c.sum := by
    intro c; unfold total; split
    · next h => rw [h]; rfl
    · rfl
  obtain ⟨L', hL', he⟩ := List.mem_map.mp hL
  cases he
  obtain ⟨k, hk, hlt⟩ := (mem_labels_tail (by omega) h0n).mp hL'
  have hadd := (rectContributions_add m (show L - 2 * h ≤ L - h by omega)
    (show L - h ≤ L by omega) (dropna power)).1
  have hkk : ((k : Int) + 1) * (2 * h) = (2 * k + 1) * h + h := by ring
  refine ⟨total (rectContributions m (L - 2 * h) (L - h) (dropna power)),
    if L - h < tn then total (rectContributions m (L - h) L (dropna power)) else none, ?_, ?_, ?_⟩
  · refine List.mem_map.mpr ⟨L - h, (mem_labels_tail hh h0n).mpr ⟨2 * k, ?_, by omega⟩, ?_⟩
    · push_cast; omega
    · rw [show L - h - h = L - 2 * h by ring]
  · by_cases hlast : L - h < tn
    · left
      rw [if_pos hlast]
      refine List.mem_map.mpr ⟨L, (mem_labels_tail hh h0n).mpr ⟨2 * k + 1, ?_, hlast⟩, rfl⟩
      push_cast
      have : (2 * (k : Int) + 1 + 1) * h = (2 * k + 1) * h + h := by ring
      omega
    · right
      rw [if_neg hlast]
      refine ⟨rfl, fun t v htv => ?_⟩
      have := hb2 t (List.mem_map.mpr ⟨_, htv, rfl⟩)
      omega
  · rw [hgetD, hgetD, hadd]
    split
    · rw [hgetD]
    · next hlast =>
      have : rectContributions m (L - h) L (dropna power) = [] := by
        have hle : ∀ k ∈ keys (dropna power), k ≤ L - h := by
          intro k hk; rw [hkeys] at hk; have := hb2 k hk; omega
        generalize dropna power = d at hle
        clear hadd hL' hL hd hkeys h0 hn hlt
        induction d with
        | nil => rfl
        | cons r d ih =>
          cases d with
          | nil => rfl
          | cons s d =>
            have hb := hle s.1 (by simp [keys])
            simp only [rectContributions]
            rw [if_neg (by unfold overlap; omega), List.nil_append]
            exact ih (fun k hk => hle k (List.mem_cons_of_mem _ hk))
      rw [this]; simp

end Verif
