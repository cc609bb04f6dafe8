import Verif.Lemmas.Filtering
import Verif.Lemmas.EnergyGaps
import Verif.Props.EnergyRegular

/-! # Property C05 for instantaneous power with gaps -/

namespace Verif
open Spec

/-- **C05 (instantaneous, coarser period).** For every series with increasing timestamps and at least one valid sample,
every gap limit `m` and every period `f` longer than the median step: mark the timestamps of the record and the ends of the
periods. The energy of a period is the sum of the integrals of the power over the pieces between neighbouring marks that
lie in the period and have power available at both marks; the power is the broken line through the valid readings,
available at the first timestamp if that is valid, inside and at the end of every gap between readings of at most `m`,
and everywhere after the last reading, where it keeps its last value. The energy is NaN if there is no such piece or if
the period ends inside an index step longer than `m`. -/
theorem C05_instantaneous {power : Series} (hs : Increasing power) (hlen : 2 ≤ power.length)
    (hv : ∃ t v, ValidAt power t v) {f : Int} (hf : 0 < f) {g : ℚ}
    (hg : IsMedian (indexSteps power) g) (hgf : g < f) (m : ℚ) (fr : Option Int)
    {t0 tn : Int} (h0 : (power.map Prod.fst).head? = some t0)
    (hn : (power.map Prod.fst).getLast? = some tn) {P : List Int} (hP : P.Pairwise (· < ·))
    (hPm : ∀ u, u ∈ P ↔ u ∈ power.map Prod.fst ∨ ∃ k : Nat, u = t0 + k * f ∧ u - f < tn) :
    ∃ out, energyFromPower power (some f) (some m) .instantaneous fr = .ok out ∧
      (∀ L, L ∈ out.map Prod.fst ↔ ∃ k : Nat, L = t0 + (k + 1) * f ∧ L - f < tn) ∧
      ∀ L e, (L, e) ∈ out → e = if InLongStep power m L then none
        else total (trapPieces m t0 (validRows power) (L - f) L P) := by
  rw [isMedian_iff] at hg
  have hd : dropna power ≠ [] := by
    obtain ⟨t, v, h⟩ := hv
    exact List.ne_nil_of_mem (mem_dropna.mpr h)
  have h0n : t0 ≤ tn := (head_le_last hs h0 hn).1 tn (List.mem_of_getLast? hn)
  have hagg := aggregate_inst_gaps hs hf m h0 hn hd
  have hU : sortedUnion (keys power ++ rightLabels t0 tn f) = P := by
    apply List.Pairwise.eq_of_mem_iff (r := (· < ·)) (sortedUnion_sorted _) hP
    intro u
    rw [mem_sortedUnion, List.mem_append, hPm]
    apply or_congr Iff.rfl
    unfold rightLabels
    simp only [List.mem_map, List.mem_range]
    have hq : 0 ≤ (tn - t0 + f - 1) / f := Int.ediv_nonneg (by omega) hf.le
    constructor
    · rintro ⟨k, hk, rfl⟩
      refine ⟨k, rfl, ?_⟩
      have hk' : (k : Int) ≤ (tn - t0 + f - 1) / f := by omega
      have := (Int.le_ediv_iff_mul_le hf).mp hk'
      omega
    · rintro ⟨k, rfl, hk⟩
      refine ⟨k, ?_, rfl⟩
      have : (k : Int) ≤ (tn - t0 + f - 1) / f := (Int.le_ediv_iff_mul_le hf).mpr (by omega)
      omega
  rw [hU] at hagg
  refine ⟨_, energy_coarse hlen hs hg hgf hagg, ?_, ?_⟩
  · intro L
    rw [← mem_labels_tail hf h0n]
    simp only [List.map_map]
    constructor
    · intro h
      obtain ⟨L', hL', he⟩ := List.mem_map.mp h
      simp only [Function.comp_apply] at he
      split at he <;> (subst he; exact hL')
    · intro h
      refine List.mem_map.mpr ⟨L, h, ?_⟩
      simp only [Function.comp_apply]
      split <;> rfl
  · intro L e h
    simp only [List.map_map, List.mem_map, Function.comp_apply] at h
    obtain ⟨L', _, he⟩ := h
    split_ifs at he with hc
    · cases he; rw [if_pos hc]
    · cases he; rw [if_neg hc]; rfl

/-! ## regular records, default arguments -/

/-- the last valid reading up to index `k` -/
def Spec.lastReading (c : Nat → Cell) : Nat → Cell
  | 0 => c 0
  | k + 1 => (c (k + 1)).or (Spec.lastReading c k)

/-- the power used at index `k` of a regular record of `n` readings: while a valid reading is still to come, the reading
itself, missing if it or the one before it is missing; afterwards the last valid reading -/
def Spec.usedPower (c : Nat → Cell) (n k : Nat) : Cell :=
  if ∃ j < n, k ≤ j ∧ c j ≠ none then
    (if k = 0 then c 0 else (c (k - 1)).bind fun _ => c k)
  else Spec.lastReading c k

theorem bridged_after {m : ℚ} {t : Int} {d : List (Int × ℚ)} (h : ∀ r ∈ d, r.1 < t) : bridged m t d = true := by
  induction d with
  | nil => rfl
  | cons r d ih =>
    cases d with
    | nil => rfl
    | cons s d =>
      have := h s (by simp)
      rw [bridged, if_neg (by omega)]
      exact ih (fun r hr => h r (List.mem_cons_of_mem _ hr))

theorem pl_after {t u : Int} {v : ℚ} {d : List (Int × ℚ)} (hs : StrictSorted (keys d)) (hm : (u, v) ∈ d)
    (h : ∀ r ∈ d, r.1 ≤ u) (hut : u ≤ t) : pl t d = v := by
  by_cases he : u = t
  · subst he; exact pl_at hs hm
  · induction d with
    | nil => simp at hm
    | cons r d ih =>
      cases d with
      | nil => simp only [List.mem_singleton] at hm; subst hm; rfl
      | cons s d =>
        have h1 := h s (by simp)
        have hs' := (List.pairwise_cons.mp hs).2
        have h2 : r.1 < s.1 := (List.pairwise_cons.mp hs).1 s.1 (by simp)
        rw [pl, if_neg (by omega)]
        refine ih hs' ?_ (fun r hr => h r (List.mem_cons_of_mem _ hr))
        rcases List.mem_cons.mp hm with hm | hm
        · subst hm; simp only at h2; omega
        · exact hm

theorem bridged_false {m : ℚ} {t : Int} {r : Int × ℚ} {l : List (Int × ℚ)} (hr : r.1 < t)
    (hb : ∃ b ∈ keys (r :: l), t ≤ b)
    (h : ∀ a ∈ keys (r :: l), ∀ b ∈ keys (r :: l), a < t → t ≤ b → m < (b : ℚ) - a) : bridged m t (r :: l) = false := by
  induction l generalizing r with
  | nil =>
    obtain ⟨b, hb, htb⟩ := hb
    simp only [keys, List.map_cons, List.map_nil, List.mem_singleton] at hb
    omega
  | cons s l ih =>
    rw [bridged]
    split_ifs with hts
    · have := h r.1 (by simp [keys]) s.1 (by simp [keys]) hr hts
      rw [decide_eq_false_iff_not]; linarith
    · apply ih (by omega)
      · obtain ⟨b, hb, htb⟩ := hb
        refine ⟨b, ?_, htb⟩
        rw [show keys (r :: s :: l) = r.1 :: keys (s :: l) from rfl] at hb
        rcases List.mem_cons.mp hb with hb | hb
        · omega
        · exact hb
      · intro a ha b hb
        exact h a (List.mem_cons_of_mem _ ha) b (List.mem_cons_of_mem _ hb)

theorem bridged_true {m : ℚ} {t a b : Int} {d : List (Int × ℚ)} (hs : StrictSorted (keys d)) (ha : a ∈ keys d)
    (hb : b ∈ keys d) (hat : a < t) (htb : t ≤ b) (h : (b : ℚ) - a ≤ m) : bridged m t d = true := by
  induction d generalizing a with
  | nil => simp [keys] at ha
  | cons r d ih =>
    cases d with
    | nil =>
      simp only [keys, List.map_cons, List.map_nil, List.mem_singleton] at ha hb
      omega
    | cons s d =>
      have hs' := (List.pairwise_cons.mp hs).2
      have hrs : r.1 < s.1 := (List.pairwise_cons.mp hs).1 s.1 (by simp)
      rw [show keys (r :: s :: d) = r.1 :: keys (s :: d) from rfl] at ha hb
      have hge : ∀ x ∈ keys (s :: d), s.1 ≤ x := by
        intro x hx
        rw [show keys (s :: d) = s.1 :: keys d from rfl] at hx
        rcases List.mem_cons.mp hx with hx | hx
        · omega
        · exact ((List.pairwise_cons.mp hs').1 x hx).le
      rw [bridged]
      split_ifs with hts
      · have hae : a = r.1 := by
          rcases List.mem_cons.mp ha with ha | ha
          · exact ha
          · have := hge a ha; omega
        have hbs : s.1 ≤ b := by
          rcases List.mem_cons.mp hb with hb | hb
          · omega
          · exact hge b hb
        have : (s.1 : ℚ) ≤ b := by exact_mod_cast hbs
        rw [hae] at h
        simp; linarith
      · have hb' : b ∈ keys (s :: d) := by
          rcases List.mem_cons.mp hb with hb | hb
          · have : r.1 < t := by omega
            omega
          · exact hb
        rcases List.mem_cons.mp ha with ha | ha
        · refine ih hs' (a := s.1) (by simp [keys]) hb' (by omega) ?_
          have : (r.1 : ℚ) < s.1 := by exact_mod_cast hrs
          rw [ha] at h
          linarith
        · exact ih hs' ha hb' hat h

theorem lastReading_some {c : Nat → Cell} {l k : Nat} {v : ℚ} (hlk : l ≤ k) (hl : c l = some v)
    (h : ∀ j, l < j → j ≤ k → c j = none) : lastReading c k = some v := by
  induction k with
  | zero =>
    have : l = 0 := by omega
    subst this; exact hl
  | succ k ih =>
    by_cases he : l = k + 1
    · subst he; rw [lastReading, hl]; rfl
    · rw [lastReading, h (k + 1) (by omega) (le_refl _), Option.none_or]
      exact ih (by omega) (fun j h1 h2 => h j h1 (by omega))

theorem exists_last {c : Nat → Cell} {k : Nat} (h : ∃ j ≤ k, c j ≠ none) :
    ∃ l ≤ k, ∃ v, c l = some v ∧ ∀ j, l < j → j ≤ k → c j = none := by
  induction k with
  | zero =>
    obtain ⟨j, hj, hc⟩ := h
    have : j = 0 := by omega
    subst this
    obtain ⟨v, hv⟩ := Option.ne_none_iff_exists'.mp hc
    exact ⟨0, le_refl _, v, hv, fun i _ _ => by omega⟩
  | succ k ih =>
    cases hc : c (k + 1) with
    | some v => exact ⟨k + 1, le_refl _, v, hc, fun i _ _ => by omega⟩
    | none =>
      obtain ⟨j, hj, hcj⟩ := h
      have hjk : j ≤ k := by
        by_contra hcon
        have : j = k + 1 := by omega
        subst this; exact hcj hc
      obtain ⟨l, h1, v, h2, h3⟩ := ih ⟨j, hjk, hcj⟩
      refine ⟨l, by omega, v, h2, ?_⟩
      intro i h4 h5
      by_cases hi : i = k + 1
      · rw [hi]; exact hc
      · exact h3 i h4 (by omega)

theorem grid_lt {t0 f : Int} (hf : 0 < f) {i j : Nat} : t0 + (i : Int) * f < t0 + j * f ↔ i < j := by
  constructor
  · intro h
    by_contra hc
    push Not at hc
    have : (j : Int) ≤ i := by exact_mod_cast hc
    nlinarith
  · intro h
    have : (i : Int) + 1 ≤ j := by exact_mod_cast h
    nlinarith

theorem grid_le {t0 f : Int} (hf : 0 < f) {i j : Nat} : t0 + (i : Int) * f ≤ t0 + j * f ↔ i ≤ j := by
  have := grid_lt (t0 := t0) hf (i := j) (j := i)
  constructor <;> intro h
  · by_contra hc
    have := this.mpr (by omega)
    omega
  · by_contra hc
    have := this.mp (by omega)
    omega

/-- the power available on the grid of a regular record -/
theorem regular_available {t0 f : Int} (hf : 0 < f) (n : Nat) (c : Nat → Cell) (hv : ∃ k, k < n ∧ c k ≠ none)
    {k : Nat} (hk : k < n) :
    (if available (f : ℚ) t0 (t0 + (k : Int) * f) (dropna (regular t0 f n c)) = true
      then some (pl (t0 + (k : Int) * f) (dropna (regular t0 f n c))) else none) = usedPower c n k := by
  have hds := dropna_sorted (regular_sorted (t0 := t0) hf n c)
  have hmem : ∀ {t v}, (t, v) ∈ dropna (regular t0 f n c) ↔
      ∃ j : Nat, j < n ∧ t = t0 + (j : Int) * f ∧ c j = some v := by
    intro t v
    rw [mem_dropna, mem_regular]
    constructor <;> rintro ⟨j, h1, h2, h3⟩ <;> exact ⟨j, h1, h2, h3.symm⟩
  have hkey : ∀ {t}, t ∈ keys (dropna (regular t0 f n c)) ↔ ∃ j : Nat, j < n ∧ t = t0 + (j : Int) * f ∧ c j ≠ none := by
    intro t
    constructor
    · intro h
      obtain ⟨⟨t', v⟩, hr, rfl⟩ := List.mem_map.mp h
      obtain ⟨j, h1, h2, h3⟩ := hmem.mp hr
      exact ⟨j, h1, h2, by rw [h3]; simp⟩
    · rintro ⟨j, h1, h2, h3⟩
      obtain ⟨v, hv⟩ := Option.ne_none_iff_exists'.mp h3
      exact List.mem_map.mpr ⟨(t, v), hmem.mpr ⟨j, h1, h2, hv⟩, rfl⟩
  have hne : dropna (regular t0 f n c) ≠ [] := by
    obtain ⟨j, hj, hcj⟩ := hv
    obtain ⟨v, hv⟩ := Option.ne_none_iff_exists'.mp hcj
    exact List.ne_nil_of_mem (hmem.mpr ⟨j, hj, rfl, hv⟩)
  generalize hD : dropna (regular t0 f n c) = D at *
  cases D with
  | nil => exact absurd rfl hne
  | cons r l =>
    obtain ⟨d0, v0⟩ := r
    have hmin : ∀ x ∈ keys ((d0, v0) :: l), d0 ≤ x := by
      intro x hx
      rw [show keys ((d0, v0) :: l) = d0 :: keys l from rfl] at hx
      rcases List.mem_cons.mp hx with hx | hx
      · omega
      · exact ((List.pairwise_cons.mp hds).1 x hx).le
    obtain ⟨i0, hi0, hd0, hci0⟩ := hmem.mp (show (d0, v0) ∈ (d0, v0) :: l by simp)
    unfold usedPower
    by_cases hlater : ∃ j < n, k ≤ j ∧ c j ≠ none
    · rw [if_pos hlater]
      by_cases hk0 : k = 0
      · subst hk0
        rw [if_pos rfl]
        have ht : t0 + ((0 : Nat) : Int) * f = t0 := by simp
        rw [ht]
        have hle : t0 ≤ d0 := by
          have := (grid_le (t0 := t0) hf (i := 0) (j := i0)).mpr (by omega)
          omega
        have hA : available (f : ℚ) t0 t0 ((d0, v0) :: l) = decide (d0 = t0) := by
          simp [available, hle]
        simp only [hA, decide_eq_true_eq]
        cases hc : c 0 with
        | some v =>
          have hm : (t0, v) ∈ (d0, v0) :: l := hmem.mpr ⟨0, hk, by simp, hc⟩
          have := hmin t0 (List.mem_map.mpr ⟨_, hm, rfl⟩)
          rw [if_pos (by omega), pl_at hds hm]
        | none =>
          rw [if_neg]
          intro h
          have : i0 = 0 := by
            have h1 := (grid_le (t0 := t0) hf (i := i0) (j := 0)).mp (by rw [← hd0, h]; simp)
            omega
          subst this
          rw [hc] at hci0; cases hci0
      · rw [if_neg hk0]
        obtain ⟨i, rfl⟩ := Nat.exists_eq_succ_of_ne_zero hk0
        simp only [Nat.succ_eq_add_one, Nat.add_sub_cancel] at *
        have htpos : t0 < t0 + ((i + 1 : Nat) : Int) * f := by
          have := (grid_lt (t0 := t0) hf (i := 0) (j := i + 1)).mpr (by omega)
          simpa using this
        by_cases hle : t0 + ((i + 1 : Nat) : Int) * f ≤ d0
        · have hA : available (f : ℚ) t0 (t0 + ((i + 1 : Nat) : Int) * f) ((d0, v0) :: l) = false := by
            simp only [available]
            rw [if_pos hle]
            simp only [decide_eq_false_iff_not]
            omega
          simp only [hA]
          have hci : c i = none := by
            by_contra hc
            have h1 := hmin _ (hkey.mpr ⟨i, by omega, rfl, hc⟩)
            have h2 := (grid_lt (t0 := t0) hf (i := i) (j := i + 1)).mpr (by omega)
            omega
          rw [hci]; simp
        · have hA : available (f : ℚ) t0 (t0 + ((i + 1 : Nat) : Int) * f) ((d0, v0) :: l) =
              bridged (f : ℚ) (t0 + ((i + 1 : Nat) : Int) * f) ((d0, v0) :: l) := by
            simp only [available]
            rw [if_neg hle]
          simp only [hA]
          by_cases hboth : c i ≠ none ∧ c (i + 1) ≠ none
          · obtain ⟨w, hw⟩ := Option.ne_none_iff_exists'.mp hboth.1
            obtain ⟨v, hv'⟩ := Option.ne_none_iff_exists'.mp hboth.2
            rw [bridged_true hds (hkey.mpr ⟨i, by omega, rfl, hboth.1⟩) (hkey.mpr ⟨i + 1, hk, rfl, hboth.2⟩)
              (grid_lt hf |>.mpr (by omega)) (le_refl _) (by push_cast; linarith), if_pos rfl,
              pl_at hds (hmem.mpr ⟨i + 1, hk, rfl, hv'⟩), hw, hv']
            rfl
          · rw [bridged_false (by simp only; omega)]
            · have : ((c i).bind fun _ => c (i + 1)) = none := by
                cases h1 : c i with
                | none => rfl
                | some w =>
                  cases h2 : c (i + 1) with
                  | none => rfl
                  | some v => exact absurd ⟨by rw [h1]; simp, by rw [h2]; simp⟩ hboth
              rw [this]; simp
            · obtain ⟨j, h1, h2, h3⟩ := hlater
              exact ⟨_, hkey.mpr ⟨j, h1, rfl, h3⟩, (grid_le hf).mpr h2⟩
            · intro a ha b hb hat htb
              obtain ⟨x, hx, rfl, hcx⟩ := hkey.mp ha
              obtain ⟨y, hy, rfl, hcy⟩ := hkey.mp hb
              have e1 := (grid_lt hf).mp hat
              have e2 := (grid_le hf).mp htb
              have e3 : x + 2 ≤ y := by
                by_contra hc
                have hxi : x = i := by omega
                have hyi : y = i + 1 := by omega
                subst hxi; subst hyi
                exact hboth ⟨hcx, hcy⟩
              have e4 : (x : ℚ) + 2 ≤ y := by exact_mod_cast e3
              have hfq : (0 : ℚ) < f := by exact_mod_cast hf
              push_cast
              nlinarith
    · rw [if_neg hlater]
      push Not at hlater
      obtain ⟨j, hj, hcj⟩ := hv
      have hjk : j ≤ k := by
        by_contra hc
        exact hcj (hlater j hj (by omega))
      obtain ⟨q, hq, v, hcq, hqn⟩ := exists_last ⟨j, hjk, hcj⟩
      have hqk : q ≠ k := by
        intro h; subst h
        rw [hlater q hk (le_refl _)] at hcq; cases hcq
      have hall : ∀ r ∈ (d0, v0) :: l, r.1 < t0 + (k : Int) * f := by
        rintro ⟨t, w⟩ hr
        obtain ⟨x, hx, rfl, hcx⟩ := hmem.mp hr
        apply (grid_lt hf).mpr
        by_contra hc
        rw [hlater x hx (by omega)] at hcx; cases hcx
      have hA : available (f : ℚ) t0 (t0 + (k : Int) * f) ((d0, v0) :: l) = true := by
        have := hall (d0, v0) (by simp)
        simp only [available]
        rw [if_neg (by simp only at this; omega)]
        exact bridged_after hall
      rw [if_pos hA, lastReading_some hq hcq hqn, pl_after hds (hmem.mpr ⟨q, by omega, rfl, hcq⟩)]
      · rintro ⟨t, w⟩ hr
        obtain ⟨x, hx, rfl, hcx⟩ := hmem.mp hr
        apply (grid_le hf).mpr
        by_contra hc
        by_cases hxk : x ≤ k
        · rw [hqn x (by omega) hxk] at hcx; cases hcx
        · rw [hlater x hx (by omega)] at hcx; cases hcx
      · exact (grid_le hf).mpr hq

theorem trapPieces_nil {m : ℚ} {t0 : Int} {d : List (Int × ℚ)} {x y : Int} {P : List Int} (h : ∀ u ∈ P, y < u) (p : Int) :
    trapPieces m t0 d x y (p :: P) = [] := by
  induction P generalizing p with
  | nil => rfl
  | cons u P ih =>
    have := h u (by simp)
    rw [trapPieces, if_neg (by omega), List.nil_append]
    exact ih (fun w hw => h w (List.mem_cons_of_mem _ hw)) u

/-- one piece -/
theorem trapPieces_one {m : ℚ} {t0 : Int} {d : List (Int × ℚ)} {p u : Int} {l1 l2 : List Int}
    (hs : StrictSorted (l1 ++ p :: u :: l2)) : trapPieces m t0 d p u (l1 ++ p :: u :: l2) =
      if available m t0 p d = true ∧ available m t0 u d = true then [trapIntegral p u d] else [] := by
  induction l1 with
  | nil =>
    have hs1 := List.pairwise_cons.mp hs
    have hs2 := List.pairwise_cons.mp hs1.2
    have hpu := hs1.1 u (by simp)
    rw [List.nil_append, trapPieces, trapPieces_nil hs2.1, List.append_nil]
    simp [hpu]
  | cons w l1 ih =>
    have hs1 := List.pairwise_cons.mp hs
    cases l1 with
    | nil =>
      rw [List.cons_append, List.nil_append, trapPieces, if_neg (by omega), List.nil_append]
      exact ih hs1.2
    | cons w2 l1 =>
      have hw2 : w2 < p := (List.pairwise_cons.mp hs1.2).1 p (by simp)
      rw [List.cons_append, List.cons_append, trapPieces, if_neg (by omega), List.nil_append]
      exact ih hs1.2

theorem range_split {n k : Nat} (h : k + 1 < n) (g : Nat → Int) :
    ∃ l1 l2, (List.range n).map g = l1 ++ g k :: g (k + 1) :: l2 := by
  refine ⟨((List.range n).map g).take k, ((List.range n).map g).drop (k + 2), ?_⟩
  conv_lhs => rw [← List.take_append_drop k ((List.range n).map g)]
  congr 1
  rw [List.drop_eq_getElem_cons (by simp; omega), List.drop_eq_getElem_cons (by simp; omega)]
  simp

theorem energy_regular_instantaneous {t0 f : Int} (hf : 0 < f) (n : Nat) (c : Nat → Cell)
    (hv : ∃ k, k < n + 2 ∧ c k ≠ none) (fr : Option Int) :
    energyFromPower (regular t0 f (n + 2) c) none none .instantaneous fr =
      .ok (regular (t0 + f) f (n + 1)
        (fun k => cellOp (fun x y => (x + y) / 2 * f / nsPerHour) (usedPower c (n + 2) k) (usedPower c (n + 2) (k + 1)))) := by
  have hs := regular_sorted (t0 := t0) hf (n + 2) c
  have hkeys := keys_regular t0 f (n + 2) c
  have hlen : ¬ (regular t0 f (n + 2) c).length ≤ 1 := by simp [regular]
  have hmed : median (valids ((tStepNs ((regular t0 f (n + 2) c).map Prod.fst)).map Prod.snd)) =
      some (f : ℚ) := by
    unfold tStepNs
    rw [valids_gaps_list]
    have := indexSteps_regular t0 f (n + 1) c
    unfold indexSteps at this
    rw [this]
    exact median_replicate n f
  have hmask : ∀ L, ¬ InLongStep (regular t0 f (n + 2) c) f L := by
    rintro L ⟨⟨a, b⟩, hab, _, _, h⟩
    have hle : ∀ s ∈ indexSteps (regular t0 f (n + 2) c), s ≤ f := by
      rw [indexSteps_regular]
      intro s hs'; rw [List.eq_of_mem_replicate hs']
    have := steps_le hle a b (adjacent_zip.mpr hab)
    simp only at h; linarith
  have h0 : (keys (regular t0 f (n + 2) c)).head? = some t0 := by
    rw [hkeys, List.range_succ_eq_map]; simp
  have hn : (keys (regular t0 f (n + 2) c)).getLast? = some (t0 + ((n + 1 : Nat) : Int) * f) := by
    rw [hkeys, List.range_succ]; simp
  have hd : dropna (regular t0 f (n + 2) c) ≠ [] := by
    obtain ⟨k, hk, hck⟩ := hv
    obtain ⟨v, hv⟩ := Option.ne_none_iff_exists'.mp hck
    exact List.ne_nil_of_mem (mem_dropna.mpr (mem_regular.mpr ⟨k, hk, rfl, hv.symm⟩))
  have hdr : dateRange t0 (t0 + ((n + 1 : Nat) : Int) * f) f =
      (List.range (n + 2)).map fun k : Nat => t0 + (k : Int) * f := by
    unfold dateRange
    have : (t0 + ((n + 1 : Nat) : Int) * f - t0) / f = ((n + 1 : Nat) : Int) := by
      rw [show t0 + ((n + 1 : Nat) : Int) * f - t0 = ((n + 1 : Nat) : Int) * f by ring]
      exact Int.mul_ediv_cancel _ (by omega)
    rw [this]
    congr 1
  have hlabs : rightLabels t0 (t0 + ((n + 1 : Nat) : Int) * f) f =
      (List.range (n + 2)).map fun k : Nat => t0 + (k : Int) * f := by
    unfold rightLabels
    have : (t0 + ((n + 1 : Nat) : Int) * f - t0 + f - 1) / f = ((n + 1 : Nat) : Int) := by
      rw [show t0 + ((n + 1 : Nat) : Int) * f - t0 + f - 1 = (f - 1) + ((n + 1 : Nat) : Int) * f by ring,
        Int.add_mul_ediv_right _ _ (by omega), Int.ediv_eq_zero_of_lt (by omega) (by omega)]
      simp
    rw [this, show (((n + 1 : Nat) : Int) + 1).toNat = n + 2 by omega]
  have hU : sortedUnion (keys (regular t0 f (n + 2) c) ++ rightLabels t0 (t0 + ((n + 1 : Nat) : Int) * f) f) =
      (List.range (n + 2)).map fun k : Nat => t0 + (k : Int) * f := by
    apply List.Pairwise.eq_of_mem_iff (r := (· < ·)) (sortedUnion_sorted _)
    · rw [← hkeys]; exact hs
    · intro u
      rw [mem_sortedUnion, List.mem_append, hlabs, hkeys, or_self]
  have hlab : (rightLabels t0 (t0 + ((n + 1 : Nat) : Int) * f) f).tail =
      (List.range (n + 1)).map fun k : Nat => t0 + ((k : Int) + 1) * f := by
    rw [hlabs, List.range_succ_eq_map]
    simp only [List.map_cons, List.map_map, List.tail_cons]
    apply List.map_congr_left
    intro k _
    simp only [Function.comp_apply]; push_cast; ring
  unfold energyFromPower
  rw [if_neg hlen]
  dsimp only
  rw [hmed]
  dsimp only [Option.getD]
  rw [Int.floor_intCast, if_pos (le_refl _)]
  have e0 : ((regular t0 f (n + 2) c).map Prod.fst).headD 0 = t0 := by
    rw [List.headD_eq_head?_getD, show (regular t0 f (n + 2) c).map Prod.fst = keys (regular t0 f (n + 2) c) from rfl, h0]; rfl
  have en : ((regular t0 f (n + 2) c).map Prod.fst).getLastD 0 = t0 + ((n + 1 : Nat) : Int) * f := by
    rw [List.getLastD_eq_getLast?, show (regular t0 f (n + 2) c).map Prod.fst = keys (regular t0 f (n + 2) c) from rfl, hn]; rfl
  rw [e0, en, hdr, interpolate_regular_self hf]
  simp only [Except.bind, aggregate_inst_gaps hs hf (f : ℚ) h0 hn hd]
  congr 1
  rw [hU, hlab, List.map_map, List.map_map]
  have hav := fun {k} (hk : k < n + 2) => regular_available (t0 := t0) hf (n + 2) c hv hk
  have hds := dropna_sorted hs
  have hmemd : ∀ x ∈ keys (dropna (regular t0 f (n + 2) c)), ∃ j : Nat, x = t0 + (j : Int) * f := by
    intro x hx
    obtain ⟨⟨t, v⟩, hr, rfl⟩ := List.mem_map.mp hx
    obtain ⟨j, _, h1, _⟩ := mem_regular.mp (mem_dropna.mp hr)
    exact ⟨j, h1⟩
  have hval : ∀ k < n + 1, total (trapPieces (f : ℚ) t0 (dropna (regular t0 f (n + 2) c)) (t0 + (k : Int) * f)
      (t0 + ((k : Int) + 1) * f) ((List.range (n + 2)).map fun k : Nat => t0 + (k : Int) * f)) =
      cellOp (fun x y => (x + y) / 2 * f / nsPerHour) (usedPower c (n + 2) k) (usedPower c (n + 2) (k + 1)) := by
    intro k hk
    obtain ⟨l1, l2, hsplit⟩ := range_split (show k + 1 < n + 2 by omega) (fun k : Nat => t0 + (k : Int) * f)
    have hss : StrictSorted (l1 ++ (t0 + (k : Int) * f) :: (t0 + ((k + 1 : Nat) : Int) * f) :: l2) := by
      rw [← hsplit, ← hkeys]; exact hs
    rw [hsplit, show t0 + ((k : Int) + 1) * f = t0 + ((k + 1 : Nat) : Int) * f by push_cast; ring, trapPieces_one hss,
      ← hav (show k < n + 2 by omega), ← hav (show k + 1 < n + 2 by omega)]
    generalize hD : dropna (regular t0 f (n + 2) c) = D at *
    cases D with
    | nil => exact absurd rfl hd
    | cons r l =>
      obtain ⟨d0, v0⟩ := r
      by_cases h1 : available (f : ℚ) t0 (t0 + (k : Int) * f) ((d0, v0) :: l) = true
      · by_cases h2 : available (f : ℚ) t0 (t0 + ((k + 1 : Nat) : Int) * f) ((d0, v0) :: l) = true
        · rw [if_pos ⟨h1, h2⟩, if_pos h1, if_pos h2, trap_local hds ((grid_lt hf).mpr (by omega)) ?_ rfl (available_ge h1)]
          · simp only [total, cellOp, List.sum_singleton, List.cons_ne_nil, if_false]
            congr 1
            push_cast
            ring
          · intro x hx ⟨h3, h4⟩
            obtain ⟨j, rfl⟩ := hmemd x hx
            have := (grid_lt hf).mp h3
            have := (grid_lt hf).mp h4
            omega
        · rw [if_neg (fun h => h2 h.2), if_neg h2]
          cases (if available (f : ℚ) t0 (t0 + (k : Int) * f) ((d0, v0) :: l) = true then
            some (pl (t0 + (k : Int) * f) ((d0, v0) :: l)) else none) <;> rfl
      · rw [if_neg (fun h => h1 h.1), if_neg h1]
        rfl
  show _ = (List.range (n + 1)).map fun k : Nat => (t0 + f + (k : Int) * f, _)
  apply List.map_congr_left
  intro k hk
  have hk' := List.mem_range.mp hk
  simp only [Function.comp_apply]
  have hmk := hmask (t0 + ((k : Int) + 1) * f)
  rw [if_neg (fun h => hmk ((longStep_mask hs _ _).mp h)),
    show t0 + ((k : Int) + 1) * f - f = t0 + (k : Int) * f by ring, hval k hk']
  congr 1
  ring

/-- **C05 (instantaneous, regular record, default arguments).** For a regular record with any pattern of missing samples
(not all missing), the energy at each timestamp after the first is the mean of the powers used at the two ends of the
interval × step. While a valid reading is still to come, the power used is the reading itself, missing when it or the
reading before it is missing; after the last valid reading it is that reading. The first timestamp carries no energy. -/
theorem C05_regular_instantaneous {t0 f : Int} (hf : 0 < f) (n : Nat) (c : Nat → Cell)
    (hv : ∃ k, k < n + 2 ∧ c k ≠ none) (fr : Option Int) :
    energyFromPower (regular t0 f (n + 2) c) none none .instantaneous fr =
      .ok (regular (t0 + f) f (n + 1)
        (fun k => (usedPower c (n + 2) k).bind fun x => (usedPower c (n + 2) (k + 1)).map fun y =>
          (x + y) / 2 * f / nsPerHour)) := by
  rw [energy_regular_instantaneous hf n c hv fr]
  congr 2
  funext k
  cases usedPower c (n + 2) k <;> cases usedPower c (n + 2) (k + 1) <;> rfl

/-- energies where the documented statement holds: a valid reading at or after the end of the interval -/
theorem C05_instantaneous_partial {t0 f : Int} (hf : 0 < f) (n : Nat) (c : Nat → Cell) (fr : Option Int) {k : Nat}
    (hk : k < n + 1) (hlater : ∃ j, k + 1 ≤ j ∧ j < n + 2 ∧ c j ≠ none) :
    ∃ out, energyFromPower (regular t0 f (n + 2) c) none none .instantaneous fr = .ok out ∧
      out[k]? = some (t0 + f + (k : Int) * f,
        if k = 0 ∨ c (k - 1) ≠ none then cellOp (fun x y => (x + y) / 2 * f / nsPerHour) (c k) (c (k + 1)) else none) := by
  obtain ⟨j, hj1, hj2, hj⟩ := hlater
  refine ⟨_, energy_regular_instantaneous hf n c ⟨j, hj2, hj⟩ fr, ?_⟩
  unfold regular
  rw [List.getElem?_map, List.getElem?_range hk]
  simp only [Option.map_some, Option.some.injEq, Prod.mk.injEq, true_and]
  have hA : ∃ j < n + 2, k ≤ j ∧ c j ≠ none := ⟨j, hj2, by omega, hj⟩
  have hB : ∃ j < n + 2, k + 1 ≤ j ∧ c j ≠ none := ⟨j, hj2, hj1, hj⟩
  unfold usedPower
  rw [if_pos hA, if_pos hB, if_neg (show ¬ k + 1 = 0 by omega), Nat.add_sub_cancel]
  by_cases hk0 : k = 0
  · subst hk0
    rw [if_pos rfl, if_pos (Or.inl rfl)]
    cases c 0 <;> cases c (0 + 1) <;> rfl
  · rw [if_neg hk0]
    by_cases hp : c (k - 1) = none
    · rw [if_neg (by push Not; exact ⟨hk0, hp⟩), hp]
      cases c k <;> rfl
    · rw [if_pos (Or.inr hp)]
      obtain ⟨w, hw⟩ := Option.ne_none_iff_exists'.mp hp
      rw [hw]
      cases c k <;> cases c (k + 1) <;> rfl

/-- energies the code invents: after the last valid reading `l` every missing interval gets the power of that reading -/
theorem C05_instantaneous_trailing {t0 f : Int} (hf : 0 < f) (n : Nat) (c : Nat → Cell) (fr : Option Int) {l k : Nat}
    {v : ℚ} (hl : c l = some v) (hlast : ∀ j, l < j → c j = none) (hlk : l < k) (hk : k < n + 1) :
    ∃ out, energyFromPower (regular t0 f (n + 2) c) none none .instantaneous fr = .ok out ∧
      out[k]? = some (t0 + f + (k : Int) * f, some (v * f / nsPerHour)) := by
  refine ⟨_, energy_regular_instantaneous hf n c ⟨l, by omega, by rw [hl]; simp⟩ fr, ?_⟩
  unfold regular
  rw [List.getElem?_map, List.getElem?_range hk]
  have hno : ∀ i, l < i → ¬ ∃ j < n + 2, i ≤ j ∧ c j ≠ none := by
    rintro i hi ⟨j, _, hij, hc⟩
    exact hc (hlast j (by omega))
  simp only [Option.map_some, Option.some.injEq, Prod.mk.injEq, true_and]
  unfold usedPower
  rw [if_neg (hno k hlk), if_neg (hno (k + 1) (by omega)), lastReading_some hlk.le hl (fun j h _ => hlast j h),
    lastReading_some (show l ≤ k + 1 by omega) hl (fun j h _ => hlast j h)]
  simp only [cellOp]
  congr 1
  ring

/-- **C05 fails** for instantaneous power: readings of 1 W, 3 W, missing, missing give 2 Wh, 3 Wh and 3 Wh although both
last readings are missing; as right-labeled power the last two energies are missing. -/
theorem C05_trailing_refuted :
    energyFromPower [(0, some 1), (hour, some 3), (2 * hour, none), (3 * hour, none)] none none .instantaneous none =
      .ok [(hour, some 2), (2 * hour, some 3), (3 * hour, some 3)] ∧
    energyFromPower [(0, some 1), (hour, some 3), (2 * hour, none), (3 * hour, none)] none none .rightLabeled none =
      .ok [(hour, some 3), (2 * hour, none), (3 * hour, none)] := by decide +kernel

/-! ## concrete cases -/

/-- marks of `exPower` with hourly periods -/
example : let P : List Int := [0, hour / 2, hour, 3 * hour / 2, 2 * hour, 3 * hour, 4 * hour, 9 * hour / 2, 5 * hour]
    P.Pairwise (· < ·) ∧
    (energyFromPower exPower (some hour) (some hour) .instantaneous none).toOption =
      some [(hour, some 3), (2 * hour, none), (3 * hour, none), (4 * hour, none), (5 * hour, some (3 / 2))] ∧
    (∀ L ∈ [hour, 2 * hour, 5 * hour], trapPieces hour 0 (validRows exPower) (L - hour) L P ≠ []) := by decide +kernel
example : energyFromPower (regular 0 hour 6 (fun k => if k = 2 ∨ k = 5 then none else some (k + 1))) none none
    .instantaneous none =
    .ok [(hour, some (3 / 2)), (2 * hour, none), (3 * hour, none), (4 * hour, none), (5 * hour, some 5)] := by decide +kernel
example : (List.range 6).map (usedPower (fun k => if k = 2 ∨ k = 5 then none else some (k + 1)) 6) =
    [some 1, some 2, none, none, some 5, some 5] := by decide +kernel

end Verif
