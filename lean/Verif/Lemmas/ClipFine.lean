import Verif.Lemmas.ClipDetect
import Verif.Lemmas.Filtering

/-! Helper lemmas: the logic-based clipping filter on finely sampled series. -/

namespace Verif.Clip

open Verif Spec

theorem stepsOf_eq_stepList (ts : List Int) : stepsOf ts = stepList ts := by
  induction ts with
  | nil => rfl
  | cons a l ih =>
    cases l with
    | nil => rfl
    | cons b l =>
      rw [stepsOf, ih]
      rfl

theorem modeMin_count {l : List Int} {f g : Int} (h : modeMin l = some f) (hg : g ∈ l) :
    l.count g ≤ l.count f := by
  have := (List.mem_filter.mp (List.min?_mem h)).2
  rw [List.all_eq_true] at this
  simpa using this g hg

theorem modeMin_fine {ts : List Int} (hf : FineSampling ts) {f : Int}
    (h : modeMin (stepsOf ts) = some f) : ¬ 10 * minuteNs ≤ f := by
  rw [stepsOf_eq_stepList] at h
  obtain ⟨g, hg, hlt, hall⟩ := hf
  intro hc
  have h1 := hall f (modeMin_mem h) hc
  have h2 := modeMin_count h hg
  omega

theorem lastLabelLe_of_last {α : Type} {K : List (Int × α)} (hs : StrictSorted (K.map Prod.fst))
    {t u : Int} {b : α} (h : (u, b) ∈ K) (hu : u ≤ t)
    (hmax : ∀ x ∈ K, x.1 ≤ t → x.1 ≤ u) : lastLabelLe K t = some b := by
  have e : lastLabelLe K t = lastLabelLe K u := by
    unfold lastLabelLe
    congr 2
    apply List.filter_congr
    intro x hx
    have : x.1 ≤ t ↔ x.1 ≤ u := ⟨hmax x hx, fun h => le_trans h hu⟩
    simp [this]
  rw [e]
  exact lastLabelLe_of_mem hs h

theorem valids_quarter (s : Series) (q : Int) :
    valids ((s.filter fun r => decide (r.1 / (15 * minuteNs) = q)).map Prod.snd) =
      quarterReadings s q := by
  unfold valids quarterReadings
  rw [List.filterMap_map]
  rfl

theorem length_resample15 (s : Series) :
    (resample15 s).length =
      ((s.index.getLastD 0) / (15 * minuteNs) - (s.index.headD 0) / (15 * minuteNs) + 1).toNat := by
  simp [resample15]

theorem resample15_get {s : Series} {n : Nat} (hn : n < (resample15 s).length) :
    (resample15 s)[n]? = some (((s.index.headD 0) / (15 * minuteNs) + (n : Int)) * (15 * minuteNs),
      median (quarterReadings s ((s.index.headD 0) / (15 * minuteNs) + (n : Int)))) := by
  rw [length_resample15] at hn
  unfold resample15
  simp only
  rw [List.getElem?_map, List.getElem?_range hn, Option.map_some, valids_quarter]

theorem keys_resample15 (s : Series) :
    keys (resample15 s) = (List.range (resample15 s).length).map fun n : Nat =>
      ((s.index.headD 0) / (15 * minuteNs) + (n : Int)) * (15 * minuteNs) := by
  rw [length_resample15]
  simp [resample15, keys, Function.comp_def]

theorem resample15_sorted (s : Series) : StrictSorted (keys (resample15 s)) := by
  rw [keys_resample15]
  unfold StrictSorted
  rw [List.pairwise_map]
  refine List.Pairwise.imp ?_ List.pairwise_lt_range
  intro a b hab
  have : (a : Int) < b := by exact_mod_cast hab
  have hp : (0 : Int) < 15 * minuteNs := by decide
  exact mul_lt_mul_of_pos_right (by omega) hp

theorem dayOf_quarter (q : Int) : dayOf (q * (15 * minuteNs)) = q / 96 := by
  unfold dayOf dayNs minuteNs
  omega

/-- a quarter with readings is on the grid -/
theorem quarter_on_grid {s : Series} (hs : StrictSorted (keys s)) {t : Int} {c : Cell}
    (h : (t, c) ∈ s) : ∃ n : Nat, n < (resample15 s).length ∧
      t / (15 * minuteNs) = (s.index.headD 0) / (15 * minuteNs) + (n : Int) := by
  have hk : t ∈ keys s := List.mem_map.mpr ⟨_, h, rfl⟩
  have hidx : s.index = keys s := rfl
  have hp : (0 : Int) < 15 * minuteNs := by decide
  have h1 : (s.index.headD 0) ≤ t := by
    rw [hidx]
    revert hk hs
    generalize keys s = l
    cases l with
    | nil => intro _ hk; simp at hk
    | cons a l =>
      intro hs hk
      rcases List.mem_cons.mp hk with e | e
      · simp [e]
      · exact le_of_lt ((List.pairwise_cons.mp hs).1 t e)
  have h2 : t ≤ (s.index.getLastD 0) := by
    rw [hidx]
    revert hk hs
    generalize keys s = l
    intro hs hk
    cases hl : l.getLast? with
    | none => rw [List.getLast?_eq_none_iff] at hl; subst hl; simp at hk
    | some z =>
      rw [List.getLastD_eq_getLast?, hl, Option.getD_some]
      obtain ⟨l', rfl⟩ := List.getLast?_eq_some_iff.mp hl
      unfold StrictSorted at hs
      rw [List.pairwise_append] at hs
      rcases List.mem_append.mp hk with e | e
      · exact le_of_lt (hs.2.2 t e z (by simp))
      · simp at e; omega
  have h3 := Int.ediv_le_ediv hp h1
  have h4 := Int.ediv_le_ediv hp h2
  refine ⟨(t / (15 * minuteNs) - (s.index.headD 0) / (15 * minuteNs)).toNat, ?_, ?_⟩
  · rw [length_resample15]; omega
  · omega

theorem median_on_grid {s : Series} (hs : StrictSorted (keys s)) {q : Int} {m : ℚ}
    (h : Verif.Spec.IsMedian (quarterReadings s q) m) : ∃ n : Nat, n < (resample15 s).length ∧
      q = (s.index.headD 0) / (15 * minuteNs) + (n : Int) := by
  obtain ⟨l', hp, _, hne, _⟩ := h
  obtain ⟨x, hx⟩ := List.exists_mem_of_ne_nil _ hne
  have hx' := hp.mem_iff.mp hx
  unfold quarterReadings at hx'
  obtain ⟨⟨t, c⟩, h1, h2⟩ := List.mem_filterMap.mp hx'
  obtain ⟨h3, h4⟩ := List.mem_filter.mp h1
  obtain ⟨n, h5, h6⟩ := quarter_on_grid hs h3
  refine ⟨n, h5, ?_⟩
  rw [← h6]
  have h7 : t / 900000000000 = q := by simpa using h4
  rw [← h7]
  rfl

theorem dropLow_quarter {s : Series} (hs : StrictSorted (keys s)) {n : Nat} {x : ℚ} :
    ((dropLow (resample15 s)).map Prod.snd)[n]? = some (some x) ↔
      n < (resample15 s).length ∧
        QuarterHigh s ((s.index.headD 0) / (15 * minuteNs) + (n : Int)) x := by
  constructor
  · intro h
    obtain ⟨t, hg, hall⟩ := dropLow_get h
    have hn := (List.getElem?_eq_some_iff.mp hg).1
    refine ⟨hn, ?_⟩
    rw [resample15_get hn, Option.some.injEq, Prod.mk.injEq] at hg
    obtain ⟨rfl, hm⟩ := hg
    refine ⟨isMedian_iff.mpr hm, ?_⟩
    intro p y hp hd
    obtain ⟨n', hn', rfl⟩ := median_on_grid hs hp
    have hmem := List.mem_of_getElem? (resample15_get hn')
    rw [isMedian_iff.mp hp] at hmem
    exact hall _ y hmem (by rw [dayOf_quarter, dayOf_quarter]; exact hd)
  · rintro ⟨hn, hm, hall⟩
    have hg := resample15_get hn
    rw [isMedian_iff.mp hm] at hg
    apply dropLow_get_of hg
    intro u y hu hd
    obtain ⟨n', hn'⟩ := List.mem_iff_getElem?.mp hu
    have hl := (List.getElem?_eq_some_iff.mp hn').1
    rw [resample15_get hl, Option.some.injEq, Prod.mk.injEq] at hn'
    obtain ⟨rfl, hm'⟩ := hn'
    rw [dayOf_quarter, dayOf_quarter] at hd
    exact hall _ y (isMedian_iff.mpr hm') hd

theorem window_quarter {s : Series} (hs : StrictSorted (keys s)) {c : ℚ} {k i : Nat} :
    (∃ j, j ≤ i ∧ i < j + k ∧ ∃ w : List ℚ, w.length = k ∧
      (((dropLow (resample15 s)).map Prod.snd).drop j).take k = w.map some ∧ Flat c w) ↔
    InQuarterPlateau s c k ((s.index.headD 0) / (15 * minuteNs) + (i : Int)) := by
  constructor
  · rintro ⟨j, h1, h2, w, hw, he, hf⟩
    refine ⟨(s.index.headD 0) / (15 * minuteNs) + (j : Int), w, hw, by omega, by omega, hf, ?_⟩
    intro n x hx
    have hn := (List.getElem?_eq_some_iff.mp hx).1
    have h3 := congrArg (fun l => l[n]?) he
    simp only [List.getElem?_map, hx, Option.map_some] at h3
    rw [List.getElem?_take_of_lt (by omega), List.getElem?_drop] at h3
    have h4 := ((dropLow_quarter hs).mp h3).2
    push_cast at h4
    rwa [← add_assoc] at h4
  · rintro ⟨a, w, hw, h1, h2, hf, hall⟩
    have hk : 0 < k := by omega
    -- the window starts on the grid
    have h0 := hall 0 (w[0]'(by omega)) (List.getElem?_eq_getElem (by omega))
    obtain ⟨j, hj, e⟩ := median_on_grid hs h0.1
    have e' : a = (s.index.headD 0) / (15 * minuteNs) + (j : Int) := by simpa using e
    subst e'
    refine ⟨j, by omega, by omega, w, hw, ?_, hf⟩
    apply List.ext_getElem?
    intro n
    rw [List.getElem?_map]
    by_cases hn : n < k
    · have hx := List.getElem?_eq_getElem (l := w) (i := n) (by omega)
      have h4 := hall n _ hx
      rw [hx, Option.map_some, List.getElem?_take_of_lt hn, List.getElem?_drop]
      apply (dropLow_quarter hs).mpr
      obtain ⟨n', hn', e2⟩ := median_on_grid hs h4.1
      refine ⟨by omega, ?_⟩
      push_cast
      rwa [← add_assoc]
    · rw [List.getElem?_eq_none (by omega : w.length ≤ n), Option.map_none,
        List.getElem?_eq_none (by rw [List.length_take]; omega)]

/-- where a plateau is detected on a finely sampled series -/
theorem detect_fine {s : Series} (hs : StrictSorted (keys s))
    (hv : ∀ d, Varied (dayReadings s d)) {m : String} {c : ℚ} {k : Nat} {f : Int}
    (hf : ¬ 10 * minuteNs ≤ f) {det : List Bool} (h : detect s m c (some k) f = .ok det) {i : Nat}
    {t : Int} {v : Cell} (hi : s[i]? = some (t, v)) :
    det[i]? = some true ↔ FinePlateau s (s.index.headD 0) c k t := by
  obtain ⟨grid, hg, hmap⟩ := detect_ok h
  have hgrid : grid = resample15 s := by
    unfold detectionGrid at hg
    simp only at hg
    rw [if_neg hf, dropDupFirst_of_nodup hs.nodup, cleanFrozen_id hv, Except.ok.injEq] at hg
    exact hg.symm
  subst hgrid
  simp only [Option.getD_some] at hmap
  obtain ⟨n, hn, hq⟩ := quarter_on_grid hs (List.mem_of_getElem? hi)
  obtain ⟨b, hb, hiff⟩ := gridFlags_mem (k := k) (c := c) hn
  have hgn : ((resample15 s)[n]).1 = (t / (15 * minuteNs)) * (15 * minuteNs) := by
    have := resample15_get hn
    rw [List.getElem?_eq_getElem hn, Option.some.injEq] at this
    rw [this, hq]
  rw [hgn] at hb
  have hp : (0 : Int) < 15 * minuteNs := by decide
  have hlast : lastLabelLe (gridFlags k c (resample15 s)) t = some b := by
    refine lastLabelLe_of_last (by rw [fst_gridFlags]; exact resample15_sorted s)
      (List.mem_of_getElem? hb) (Int.ediv_mul_le t hp.ne') ?_
    intro x hx hle
    have hxk : x.1 ∈ keys (resample15 s) := by
      rw [← fst_gridFlags k c]; exact List.mem_map.mpr ⟨x, hx, rfl⟩
    rw [keys_resample15] at hxk
    obtain ⟨n', _, hx'⟩ := List.mem_map.mp hxk
    rw [← hx'] at hle ⊢
    have := (Int.le_ediv_iff_mul_le hp).mpr hle
    exact mul_le_mul_of_nonneg_right this hp.le
  have h1 := congrArg (fun l => l[i]?) hmap
  simp only [List.getElem?_map, hi, Option.map_some, hlast] at h1
  have h2 : det[i]? = some b := by
    cases hdi : det[i]? with
    | none => rw [hdi] at h1; simp at h1
    | some d => rw [hdi] at h1; simp at h1; rw [h1]
  rw [h2, Option.some.injEq, hiff, window_quarter hs]
  unfold FinePlateau
  have hc : (15 * minuteNs : Int) = 900000000000 := by decide
  rw [hc] at hq ⊢
  rw [← hq]
  apply and_congr_left
  intro _
  omega

end Verif.Clip
