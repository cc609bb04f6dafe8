import Verif.Lemmas.ClipRegular

/-! Plateau detection on a complete regular series sampled every ten minutes or less often. -/

namespace Verif.Clip

open Verif Spec

theorem regular_get {t0 f : Int} {vals : List ℚ} {i : Nat} {x : ℚ} (h : vals[i]? = some x) :
    (regular t0 f vals)[i]? = some (t0 + (i : Int) * f, some x) := by
  unfold regular
  have hi := (List.getElem?_eq_some_iff.mp h).1
  rw [List.getElem?_map, List.getElem?_range hi, Option.map_some, h]

theorem regular_get_inv {t0 f : Int} {vals : List ℚ} {i : Nat} {r : Int × Cell}
    (h : (regular t0 f vals)[i]? = some r) :
    ∃ x, vals[i]? = some x ∧ r = (t0 + (i : Int) * f, some x) := by
  have hi := (List.getElem?_eq_some_iff.mp h).1
  have hi' : i < vals.length := by simpa [regular] using hi
  refine ⟨vals[i], by simp [hi'], ?_⟩
  rw [regular_get (List.getElem?_eq_getElem hi')] at h
  exact (Option.some.inj h).symm

theorem length_regular (t0 f : Int) (vals : List ℚ) : (regular t0 f vals).length = vals.length := by
  simp [regular]

theorem mem_regular {t0 f : Int} {vals : List ℚ} {r : Int × Cell} :
    r ∈ regular t0 f vals ↔ ∃ (i : Nat) (x : ℚ), vals[i]? = some x ∧
      r = (t0 + (i : Int) * f, some x) := by
  constructor
  · intro h
    obtain ⟨i, hi⟩ := List.mem_iff_getElem?.mp h
    exact ⟨i, regular_get_inv hi⟩
  · rintro ⟨i, x, hx, rfl⟩
    exact List.mem_of_getElem? (regular_get hx)

theorem keys_regular (t0 f : Int) (vals : List ℚ) :
    keys (regular t0 f vals) = (List.range vals.length).map fun i : Nat => t0 + (i : Int) * f := by
  simp [regular, keys, Function.comp_def]

theorem regular_sorted {t0 f : Int} (hf : 0 < f) (vals : List ℚ) :
    StrictSorted (keys (regular t0 f vals)) := by
  rw [keys_regular]
  unfold StrictSorted
  rw [List.pairwise_map]
  refine List.Pairwise.imp ?_ List.pairwise_lt_range
  intro a b hab
  have : (a : Int) < b := by exact_mod_cast hab
  nlinarith

theorem stepsOf_range (t0 f : Int) (n : Nat) :
    stepsOf ((List.range (n + 1)).map fun i : Nat => t0 + (i : Int) * f) = List.replicate n f := by
  induction n generalizing t0 with
  | zero => rfl
  | succ n ih =>
    rw [List.range_succ_eq_map, List.map_cons, List.map_map]
    have e : (List.range (n + 1)).map ((fun i : Nat => t0 + (i : Int) * f) ∘ Nat.succ) =
        (List.range (n + 1)).map fun i : Nat => (t0 + f) + (i : Int) * f := by
      apply List.map_congr_left
      intro i _
      simp only [Function.comp_apply, Nat.succ_eq_add_one]
      push_cast; ring
    rw [e]
    have ih' := ih (t0 + f)
    have hc : (List.range (n + 1)).map (fun i : Nat => (t0 + f) + (i : Int) * f) =
        (t0 + f) :: ((List.range n).map ((fun i : Nat => (t0 + f) + (i : Int) * f) ∘ Nat.succ)) := by
      rw [List.range_succ_eq_map, List.map_cons, List.map_map]
      simp
    rw [hc] at ih' ⊢
    rw [stepsOf, ih', List.replicate_succ]
    congr 1
    simp

theorem modeMin_replicate {n : Nat} (hn : 0 < n) (f : Int) :
    modeMin (List.replicate n f) = some f := by
  obtain ⟨x, hx⟩ := Option.isSome_iff_exists.mp
    (modeMin_isSome (l := List.replicate n f) (by simp; omega))
  rw [hx]
  have := modeMin_mem hx
  rw [List.mem_replicate] at this
  rw [this.2]

theorem modeMin_regular {t0 f : Int} {vals : List ℚ} (hl : 2 ≤ vals.length) :
    modeMin (stepsOf (regular t0 f vals).index) = some f := by
  have h : (regular t0 f vals).index = keys (regular t0 f vals) := rfl
  rw [h, keys_regular]
  obtain ⟨n, hn⟩ : ∃ n, vals.length = n + 1 := ⟨vals.length - 1, by omega⟩
  rw [hn, stepsOf_range]
  exact modeMin_replicate (by omega) f

/-! ### frozen days -/

theorem valids_onDay (s : Series) (d : Int) : valids (onDay s d) = dayReadings s d := by
  unfold valids onDay dayReadings dayOf dayNs
  rw [List.filterMap_map]
  rfl

theorem not_frozen_of_varied {cells : List Cell} (h : Varied (valids cells)) :
    frozen cells = false := by
  unfold frozen
  simp only
  cases hm : mean (valids cells) with
  | none => rfl
  | some m =>
    simp only
    obtain ⟨hne, hme⟩ := mean_eq_some hm
    by_cases h2 : 2 ≤ (valids cells).length
    · have hlen : (0 : ℚ) < (valids cells).length := length_pos_q hne
      have hm0 : 0 ≤ m := by rw [hme]; exact div_nonneg h.1 hlen.le
      have h3 : ¬ ((valids cells).map fun x => (x - m) ^ 2).sum / ((valids cells).length - 1 : ℚ) <
          (m / 10) ^ 2 := by
        have h1 : (0 : ℚ) < (valids cells).length - 1 := by
          have : (2 : ℚ) ≤ (valids cells).length := by exact_mod_cast h2
          linarith
        rw [not_lt, le_div_iff₀ h1]
        have := h.2
        rw [← hme] at this
        exact this
      simp [h3, not_lt.mpr hm0]
    · simp [h2]

theorem cleanFrozen_id {s : Series} (h : ∀ d, Varied (dayReadings s d)) : cleanFrozen s = s := by
  unfold cleanFrozen
  conv_rhs => rw [← List.map_id s]
  apply List.map_congr_left
  intro r _
  rw [not_frozen_of_varied (by rw [valids_onDay]; exact h _)]
  rfl

/-! ### the grid of a regular series is the series -/

theorem dateRange_regular {t0 f : Int} (hf : 0 < f) {vals : List ℚ} (hl : 0 < vals.length) :
    dateRange ((regular t0 f vals).index.headD 0) ((regular t0 f vals).index.getLastD 0) f =
      keys (regular t0 f vals) := by
  have h : (regular t0 f vals).index = keys (regular t0 f vals) := rfl
  rw [h, keys_regular]
  obtain ⟨n, hn⟩ : ∃ n, vals.length = n + 1 := ⟨vals.length - 1, by omega⟩
  rw [hn]
  have h1 : ((List.range (n + 1)).map fun i : Nat => t0 + (i : Int) * f).headD 0 = t0 := by
    rw [List.range_succ_eq_map]; simp
  have h2 : ((List.range (n + 1)).map fun i : Nat => t0 + (i : Int) * f).getLastD 0 =
      t0 + (n : Int) * f := by
    rw [List.range_succ, List.map_append, List.getLastD_eq_getLast?]; simp
  rw [h1, h2]
  unfold dateRange
  have h3 : (t0 + (n : Int) * f - t0) / f = n := by
    rw [show t0 + (n : Int) * f - t0 = (n : Int) * f by ring]
    exact Int.mul_ediv_cancel _ (by omega)
  rw [h3]
  congr 1

theorem gaps_range (t0 f : Int) (n : Nat) :
    valids ((gaps ((List.range (n + 1)).map fun i : Nat => t0 + (i : Int) * f)).map Prod.snd) =
      List.replicate n (f : ℚ) := by
  have key : ∀ (l : List Int) (p : Int), valids ((gapsFrom p l).map Prod.snd) =
      (stepsOf (p :: l)).map fun d : Int => (d : ℚ) := by
    intro l
    induction l with
    | nil => intro p; rfl
    | cons a l ih =>
      intro p
      rw [gapsFrom, stepsOf, List.map_cons, List.map_cons, ← ih a]
      have : valids (some ((a : ℚ) - p) :: (gapsFrom a l).map Prod.snd) =
        ((a : ℚ) - p) :: valids ((gapsFrom a l).map Prod.snd) := rfl
      rw [this]
      push_cast
      rfl
  have hs := stepsOf_range t0 f n
  rw [List.range_succ_eq_map, List.map_cons] at hs ⊢
  have h1 : ∀ (a : Int) (l : List Int), valids ((gaps (a :: l)).map Prod.snd) =
    valids ((gapsFrom a l).map Prod.snd) := fun _ _ => rfl
  rw [h1, key, hs]
  simp

theorem dropna_regular {t0 f : Int} {vals : List ℚ} :
    toSeries (dropna (regular t0 f vals)) = regular t0 f vals := by
  have : ∀ s : Series, (∀ r ∈ s, r.2.isSome) → toSeries (dropna s) = s := by
    intro s
    induction s with
    | nil => intro _; rfl
    | cons r s ih =>
      intro h
      obtain ⟨t, v⟩ := r
      have hv := h (t, v) List.mem_cons_self
      obtain ⟨x, hx⟩ := Option.isSome_iff_exists.mp hv
      simp only at hx
      subst hx
      have e : toSeries (dropna ((t, some x) :: s)) = (t, some x) :: toSeries (dropna s) := rfl
      rw [e, ih fun r hr => h r (List.mem_cons_of_mem _ hr)]
  apply this
  intro r hr
  obtain ⟨i, x, _, rfl⟩ := mem_regular.mp hr
  rfl

theorem keys_dropna_regular {t0 f : Int} {vals : List ℚ} :
    keys (dropna (regular t0 f vals)) = keys (regular t0 f vals) := by
  conv_rhs => rw [← dropna_regular]
  rw [keys_toSeries]

theorem grid_regular {t0 f : Int} (hf : 10 * minuteNs ≤ f) {vals : List ℚ} (hl : 2 ≤ vals.length)
    (hv : ∀ d, Varied (dayReadings (regular t0 f vals) d)) :
    detectionGrid (regular t0 f vals) f = .ok (regular t0 f vals) := by
  have hpos : 0 < f := by
    have : (0 : Int) < 10 * minuteNs := by decide
    omega
  have hs := regular_sorted (t0 := t0) hpos vals
  unfold detectionGrid
  simp only
  rw [dropDupFirst_of_nodup hs.nodup, cleanFrozen_id hv, if_pos hf,
    interpolateSeries_eq hs, dateRange_regular hpos (by omega)]
  congr 1
  have hM : gapLimit (keys (dropna (regular t0 f vals))) none = some (2 * (f : ℚ)) := by
    unfold gapLimit
    rw [keys_dropna_regular, keys_regular]
    obtain ⟨n, hn⟩ : ∃ n, vals.length = n + 1 := ⟨vals.length - 1, by omega⟩
    simp only
    rw [hn, gaps_range]
    have : median (List.replicate n (f : ℚ)) = some (f : ℚ) := by
      unfold median
      obtain ⟨v, hv⟩ := Option.isSome_iff_exists.mp
        (quantile_isSome (l := List.replicate n (f : ℚ)) (q := 1/2).mpr (by simp; omega))
      rw [hv, Option.some.injEq]
      refine le_antisymm (quantile_le hv (by norm_num) (by norm_num) ?_)
        (quantile_ge hv (by norm_num) (by norm_num) ?_)
      · intro x hx; rw [List.mem_replicate] at hx; rw [hx.2]
      · intro x hx; rw [List.mem_replicate] at hx; rw [hx.2]
    rw [this]; rfl
  rw [hM]
  have hk : keys (regular t0 f vals) = (regular t0 f vals).map Prod.fst := rfl
  rw [hk, List.map_map]
  conv_rhs => rw [← List.map_id (regular t0 f vals)]
  apply List.map_congr_left
  rintro ⟨t, c⟩ hr
  obtain ⟨i, x, hx, he⟩ := mem_regular.mp hr
  rw [Prod.mk.injEq] at he
  obtain ⟨rfl, rfl⟩ := he
  simp only [Function.comp_apply, id, Prod.mk.injEq, true_and]
  have hlk : lookupK (toSeries (dropna (regular t0 f vals))) (t0 + (i : Int) * f) = some x := by
    rw [dropna_regular]
    exact lookupK_of_mem hs.nodup hr
  unfold valueAt
  rw [hlk]
  have hfq : (0 : ℚ) ≤ 2 * (f : ℚ) := by
    have : (0 : ℚ) < (f : ℚ) := by exact_mod_cast hpos
    linarith
  simp [within, cellCmp, hfq]

/-! ### detection -/

theorem dropLow_regular {t0 f : Int} {vals : List ℚ} {n : Nat} {x : ℚ} :
    ((dropLow (regular t0 f vals)).map Prod.snd)[n]? = some (some x) ↔
      vals[n]? = some x ∧ NotLow t0 f vals n := by
  constructor
  · intro h
    obtain ⟨t, hg, hall⟩ := dropLow_get h
    obtain ⟨y, hy, he⟩ := regular_get_inv hg
    rw [Prod.mk.injEq, Option.some.injEq] at he
    obtain ⟨rfl, rfl⟩ := he
    refine ⟨hy, x, hy, ?_⟩
    intro j z hz hd
    exact hall (t0 + (j : Int) * f) z (mem_regular.mpr ⟨j, z, hz, rfl⟩) hd.symm
  · rintro ⟨hx, y, hy, hall⟩
    rw [hx, Option.some.injEq] at hy
    subst hy
    apply dropLow_get_of (regular_get hx)
    intro u z hz hd
    obtain ⟨j, z', hz', he⟩ := mem_regular.mp hz
    rw [Prod.mk.injEq, Option.some.injEq] at he
    obtain ⟨rfl, rfl⟩ := he
    exact hall j z hz' hd.symm

theorem window_regular {t0 f : Int} {vals : List ℚ} {c : ℚ} {k j : Nat} :
    (∃ w : List ℚ, w.length = k ∧
      (((dropLow (regular t0 f vals)).map Prod.snd).drop j).take k = w.map some ∧ Flat c w) ↔
    (0 < k ∧ j + k ≤ vals.length ∧ Flat c ((vals.drop j).take k) ∧
      ∀ n, j ≤ n → n < j + k → NotLow t0 f vals n) := by
  constructor
  · rintro ⟨w, hw, he, hf⟩
    have hk : 0 < k := by
      obtain ⟨mx, hmx, _⟩ := hf
      rw [← hw]; exact List.length_pos_of_mem hmx
    have hget : ∀ i, i < k → ∃ x, w[i]? = some x ∧ vals[j + i]? = some x ∧
        NotLow t0 f vals (j + i) := by
      intro i hi
      have hwi : w[i]? = some (w[i]'(by omega)) := List.getElem?_eq_getElem (by omega)
      have h1 : ((((dropLow (regular t0 f vals)).map Prod.snd).drop j).take k)[i]? =
          some (some (w[i]'(by omega))) := by
        rw [he, List.getElem?_map, hwi]; rfl
      rw [List.getElem?_take, if_pos hi, List.getElem?_drop] at h1
      obtain ⟨h2, h3⟩ := dropLow_regular.mp h1
      exact ⟨_, hwi, h2, h3⟩
    have hlen : j + k ≤ vals.length := by
      obtain ⟨x, _, h2, _⟩ := hget (k - 1) (by omega)
      have := (List.getElem?_eq_some_iff.mp h2).1
      omega
    have heq : (vals.drop j).take k = w := by
      apply List.ext_getElem?
      intro i
      rw [List.getElem?_take]
      split_ifs with hi
      · rw [List.getElem?_drop]
        obtain ⟨x, h1, h2, _⟩ := hget i hi
        rw [h1, h2]
      · rw [List.getElem?_eq_none (by omega)]
    refine ⟨hk, hlen, by rw [heq]; exact hf, ?_⟩
    intro n h1 h2
    obtain ⟨_, _, _, h3⟩ := hget (n - j) (by omega)
    rwa [show j + (n - j) = n by omega] at h3
  · rintro ⟨hk, hlen, hf, hlow⟩
    refine ⟨_, ?_, ?_, hf⟩
    · simp; omega
    · apply List.ext_getElem?
      intro i
      rw [List.getElem?_take, List.getElem?_map, List.getElem?_take]
      split_ifs with hi
      · rw [List.getElem?_drop, List.getElem?_drop]
        have hx : vals[j + i]? = some (vals[j + i]'(by omega)) := List.getElem?_eq_getElem (by omega)
        rw [hx, dropLow_regular.mpr ⟨hx, hlow (j + i) (by omega) (by omega)⟩]
        rfl
      · rfl

/-- **detection**: reading `i` is detected exactly if it lies in a plateau and is not among the
first `k - 1` readings of the series -/
theorem detect_regular {t0 f : Int} (hf : 10 * minuteNs ≤ f) {vals : List ℚ} (hl : 2 ≤ vals.length)
    (hv : ∀ d, Varied (dayReadings (regular t0 f vals) d)) (m : String) (c : ℚ) (k : Nat) :
    ∃ det, detect (regular t0 f vals) m c (some k) f = .ok det ∧ det.length = vals.length ∧
      ∀ i, i < vals.length → (det[i]? = some true ↔ k ≤ i + 1 ∧ InPlateau t0 f vals c k i) := by
  have hpos : 0 < f := by
    have : (0 : Int) < 10 * minuteNs := by decide
    omega
  have hs := regular_sorted (t0 := t0) hpos vals
  have hne : regular t0 f vals ≠ [] := by
    intro e
    have := congrArg List.length e
    rw [length_regular, List.length_nil] at this
    omega
  obtain ⟨det, hd⟩ := detect_total hs hne m c (some k) f
  have hlen := length_detect hd
  rw [length_regular] at hlen
  refine ⟨det, hd, hlen, ?_⟩
  intro i hi
  obtain ⟨grid, hg, hmap⟩ := detect_ok hd
  rw [grid_regular hf hl hv, Except.ok.injEq] at hg
  subst hg
  simp only [Option.getD_some] at hmap
  have hgi : i < (regular t0 f vals).length := by rw [length_regular]; exact hi
  obtain ⟨b, hb, hiff⟩ := gridFlags_mem (k := k) (c := c) hgi
  have hlast : lastLabelLe (gridFlags k c (regular t0 f vals)) ((regular t0 f vals)[i]).1 = some b :=
    lastLabelLe_of_mem (by rw [fst_gridFlags]; exact hs) (List.mem_of_getElem? hb)
  have h1 := congrArg (fun l => l[i]?) hmap
  simp only [List.getElem?_map] at h1
  rw [List.getElem?_eq_getElem hgi] at h1
  simp only [Option.map_some] at h1
  rw [hlast] at h1
  have h2 : det[i]? = some b := by
    cases hdi : det[i]? with
    | none => rw [hdi] at h1; simp at h1
    | some d => rw [hdi] at h1; simp at h1; rw [h1]
  rw [h2, Option.some.injEq, hiff]
  apply and_congr_right
  intro _
  constructor
  · rintro ⟨j, a, b', hw⟩
    obtain ⟨_, h3, h4, h5⟩ := window_regular.mp hw
    exact ⟨j, a, b', h3, h4, h5⟩
  · rintro ⟨j, a, b', h3, h4, h5⟩
    exact ⟨j, a, b', window_regular.mpr ⟨by omega, h3, h4, h5⟩⟩

end Verif.Clip
