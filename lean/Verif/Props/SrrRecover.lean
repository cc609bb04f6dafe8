import Verif.Lemmas.SrrLinear
import Verif.Lemmas.SrrExample

/-! # Properties C116 (exact detection of cleanings) and C117 (recovery of the soiling ratio) -/

namespace Verif
open Spec

/-- **C116 (detection).** Let the performance of a series without gaps only fall between cleanings, by at most
`m` a day, with at least `day_scale` days (an odd number) between the start, the cleanings and the end. If each
cleaning restores more than the threshold, comparing `day_scale / 2` days after it with as many days before its
eve, then the days that begin a new interval are exactly the cleanings. The threshold may be given, relative to
the factor the performance is divided by, or inferred, in which case it is enough that each cleaning restores
more than `1 + outlier_factor` times `m`. -/
theorem C116_detection {o : DailyOpts} {pm insol : Series} {precip : Option Series} {v : Nat → ℚ} {D : List Nat}
    {n h : Nat} {m f : ℚ} (hinit : srrInit pm insol precip = .ok ()) (hv : HasValues pm v n)
    (hpos : ∀ i < n, 0 < v i) (hf : FirstYear o.recenter v n f) (ho : o.dayScale = 2 * h + 1)
    (hc : o.criterion = .shift) (hm : 0 ≤ m) (hs : SoilsBetween v D n m) (hsp : Spaced D n o.dayScale)
    (hthr : ThresholdFits o v D h m f) :
    ∃ r, calcDailyDf o pm insol precip = .ok r ∧ r.1 = some f ∧ r.2.length = n ∧
      ∀ i (hi : i < r.2.length), r.2[i].event = true ↔ i ∈ D := by
  obtain ⟨r, hr, hr1, -, hx, -⟩ := calcDailyDf_full hinit hv hpos hf (by omega) hc
  rw [ho] at hsp
  refine ⟨r, hr, hr1, by simpa [normalized] using congrArg List.length hx, fun i hi => ?_⟩
  exact (events_full hinit (firstYear_pos hf hpos) ho hc hm hs hsp hthr hr hr1 hx hi).1

/-- a cleaning on day 4 of 8, the threshold given -/
example : ∃ r, calcDailyDf SrrEx.opts SrrEx.pm SrrEx.insol none = .ok r ∧ r.1 = some 1 ∧ r.2.length = 8 ∧
    ∀ i (hi : i < r.2.length), r.2[i].event = true ↔ i ∈ [4] :=
  C116_detection (v := SrrEx.saw 4 (1/10)) (h := 0) (m := 1/10) (f := 1) (by decide +kernel)
    (by unfold HasValues; decide +kernel) (by decide +kernel) (by simp [FirstYear, SrrEx.opts]) rfl rfl (by norm_num)
    (fun i hi h => by
      have : ∀ i < 7, i + 1 ∉ [4] → SrrEx.saw 4 (1/10) (i + 1) ≤ SrrEx.saw 4 (1/10) i ∧
        SrrEx.saw 4 (1/10) i ≤ SrrEx.saw 4 (1/10) (i + 1) + 1/10 := by decide +kernel
      exact this i (by omega) h)
    (by unfold Spaced; decide +kernel)
    (Or.inl ⟨1/10, rfl, by norm_num, by unfold Restores; decide +kernel⟩)

/-- a cleaning on day 10 of 20, the threshold inferred from the shifts of medians over five days, the performance
relative to its median -/
example : ∃ r, calcDailyDf { SrrEx.opts with dayScale := 5, cleanThreshold := none, recenter := true }
      SrrEx.pmSaw SrrEx.insolSaw none = .ok r ∧ r.1 = some (191/200) ∧ r.2.length = 20 ∧
    ∀ i (hi : i < r.2.length), r.2[i].event = true ↔ i ∈ [10] :=
  C116_detection (v := SrrEx.saw 10 (1/100)) (h := 2) (m := 1/100) (f := 191/200) (by decide +kernel)
    (by unfold HasValues; decide +kernel) (by decide +kernel)
    (by rw [FirstYear, if_pos rfl, isMedian_iff]; decide +kernel) rfl rfl (by norm_num)
    (fun i hi h => by
      have : ∀ i < 19, i + 1 ∉ [10] → SrrEx.saw 10 (1/100) (i + 1) ≤ SrrEx.saw 10 (1/100) i ∧
        SrrEx.saw 10 (1/100) i ≤ SrrEx.saw 10 (1/100) (i + 1) + 1/100 := by decide +kernel
      exact this i (by omega) h)
    (by unfold Spaced; decide +kernel)
    (Or.inr ⟨rfl, by norm_num, by decide +kernel, by unfold Restores; decide +kernel⟩)

/-- the analysis when every start loss is 1 -/
theorem srr_ones {ord : List Nat → List Nat} (hord : ∀ l, (ord l).Perm l) {zs : List (ℚ × ℚ) → ℚ}
    (hz : ∀ p, 0 ≤ zs p) {o : DailyOpts} {ro : ResultOpts} {meth : SrrMethod} {exceed conf : ℚ} {draws : List SrrDraw}
    {pm insol : Series} {precip : Option Series} {v rate : Nat → ℚ} {D : List Nat} {n h L : Nat} {m f : ℚ}
    (hinit : srrInit pm insol precip = .ok ()) (hv : HasValues pm v n)
    (hpos : ∀ i < n, 0 < v i) (hf : FirstYear o.recenter v n f) (ho : o.dayScale = 2 * h + 1)
    (hc : o.criterion = .shift) (hm : 0 ≤ m) (hb : ∀ i, 0 ≤ rate i ∧ rate i ≤ m)
    (hl : ∀ s i, i < n → CleanedLast D s i → v i = v s - rate s * ((i : ℚ) - s))
    (hsp : Spaced D n L) (hL1 : o.dayScale ≤ L) (hL2 : ro.minIntervalLength < L)
    (hthr : ThresholdFits o v D h m f) (htrim : ro.trim = false) (hlen : 1 ≤ ro.minIntervalLength)
    (hrel : 0 < ro.maxRelSlopeError) (hneg : m < ro.maxNegativeStep * f)
    (hone : ∀ tab : List Interval, (∀ i ∈ tab, i.low = i.slope ∧ i.high = i.slope) →
      (∀ i ∈ tab, i.valid = true) →
      (∀ i ∈ tab, ∃ s e, s ≤ e ∧ (s = 0 ∨ s ∈ D) ∧ e < n ∧ CleanedLast D s e ∧ i.slope = -(rate s / f) ∧
        i.length = (e : Int) - s ∧ i.infEnd = v e / f) →
      (∀ k (hk : k < tab.length), tab[k].recovery = none ∨ ∃ s, (s = 0 ∨ s ∈ D) ∧
        tab[k].recovery = some (max 0 (min 1 (max 0 (min 1 (v s / f)) - tab[k].infEnd)))) →
      ∀ dr, startLosses ord meth dr tab = .ok (tab.map fun _ => some 1))
    (hdraws : draws ≠ []) (hc0 : 0 ≤ conf) (hc1 : conf ≤ 100) (he0 : 0 ≤ exceed) (he1 : exceed ≤ 100)
    (hins : (pm.map fun x => (lookupK insol x.1).getD 0).sum ≠ 0) :
    ∃ out p, soilingSrr ord zs o ro meth exceed conf draws pm insol precip = .ok out ∧
      out.profiles = draws.map (fun _ => p) ∧ p.map Prod.fst = pm.map Prod.fst ∧
      (∀ i s, i < n → CleanedLast D s i → (p[i]?).map Prod.snd = some (some (1 - (v s - v i) / f))) ∧
      out.ratio * (p.map fun x => (lookupK insol x.1).getD 0).sum =
        (p.map fun x => x.2.getD 0 * (lookupK insol x.1).getD 0).sum ∧
      out.low = out.ratio ∧ out.high = out.ratio ∧ out.exceedance = out.ratio ∧
      ∀ i ∈ out.table, ∃ s e, s ≤ e ∧ e < n ∧ CleanedLast D s e ∧ (e + 1 = n ∨ e + 1 ∈ D) ∧
        (pm[s]?).map Prod.fst = some i.start ∧ (pm[e]?).map Prod.fst = some i.stop ∧ i.valid = true ∧
        i.slope = -(rate s / f) ∧ i.low = i.slope ∧ i.high = i.slope ∧ i.infStart = v s / f ∧ i.infEnd = v e / f := by
  obtain ⟨r, hr, hr1, hrt, hx, hpi⟩ := calcDailyDf_full hinit hv hpos hf (by omega) hc
  have hf0 := firstYear_pos hf hpos
  have hn : r.2.length = n := by simpa [normalized] using congrArg List.length hx
  obtain ⟨H, hne⟩ := calcDailyDf_rows hinit hr
  have hs : SoilsBetween v D n m := soilsLinearly_between ⟨rate, hb, hl⟩
  have hsp' : Spaced D n (2 * h + 1) := spaced_mono hsp (by omega)
  have hE := fun i (hi : i < r.2.length) => events_full hinit hf0 ho hc hm hs hsp' hthr hr hr1 hx hi
  have hpi' : ∀ i (hi : i < r.2.length), r.2[i].piNorm = v i / f := by
    intro i hi
    have := congrArg (fun L : List ℚ => L[i]?) hpi
    simp only [List.getElem?_map, List.getElem?_eq_getElem hi, List.getElem?_range (show i < n by omega),
      Option.map_some, Option.some.injEq] at this
    exact this
  -- the table
  have hfull := fun (i : Interval) (hi : i ∈ intervalTable zs ro r.2) =>
    interval_full hz H hn hf0 hpos (fun i hi => (hE i hi).1) hpi' (fun i hi => (hE i hi).2) hb hl hsp hlen hL2 hrel hneg hi
  have hresult : calcResultDf zs ro r.2 = .ok (intervalTable zs ro r.2, analyzedDays (intervalTable zs ro r.2) r.2) := by
    have h0 : 0 < r.2.length := List.length_pos_iff.mpr hne
    obtain ⟨i, hi, -⟩ := table_exists (zs := zs) htrim (List.getElem_mem h0)
    obtain ⟨s, e, -, -, -, -, -, -, -, -, -, -, hval, -⟩ := hfull i hi
    unfold calcResultDf
    simp only
    rw [if_neg (List.ne_nil_of_mem hi), if_neg (List.ne_nil_of_mem (List.mem_filter.mpr ⟨hi, hval⟩))]
  have hnd : ((intervalTable zs ro r.2).map Interval.run).Nodup := by
    rw [table_runs]; exact (runList_sorted ro.trim r.2).imp fun h => h.ne
  have hrec : ∀ k (hk : k < (intervalTable zs ro r.2).length), (intervalTable zs ro r.2)[k].recovery = none ∨
      ∃ s, (s = 0 ∨ s ∈ D) ∧ (intervalTable zs ro r.2)[k].recovery =
        some (max 0 (min 1 (max 0 (min 1 (v s / f)) - (intervalTable zs ro r.2)[k].infEnd))) := by
    intro k hk
    obtain ⟨-, -, c3, c4⟩ := C33_recovery hresult (k := k) hk
    have hv' : ∀ j (hj : j < (intervalTable zs ro r.2).length), (intervalTable zs ro r.2)[j].valid = true := by
      intro j hj
      obtain ⟨s, e, -, -, -, -, -, -, -, -, -, -, hval, -⟩ := hfull _ (List.getElem_mem hj)
      exact hval
    by_cases hk1 : k + 1 < (intervalTable zs ro r.2).length
    · right
      obtain ⟨s, e, -, -, -, hsD, -, -, -, -, -, -, -, -, -, -, hst, -⟩ := hfull _ (List.getElem_mem hk1)
      refine ⟨s, hsD, ?_⟩
      rw [← hst]
      exact c4 (k + 1) hk1 (by omega) (hv' k hk) (hv' _ hk1) (fun q _ h1 h2 => by omega)
    · left
      exact c3 (hv' k hk) (fun j hj hkj => by simp only at hj; omega)
  have hexact : ∀ i ∈ intervalTable zs ro r.2, i.low = i.slope ∧ i.high = i.slope := by
    intro i hi
    obtain ⟨s, e, -, -, -, -, -, -, -, -, -, -, -, -, g1, g2, -⟩ := hfull i hi
    exact ⟨g1, g2⟩
  have hstart := hone (intervalTable zs ro r.2) hexact
    (fun i hi => by obtain ⟨s, e, -, -, -, -, -, -, -, -, -, -, hval, -⟩ := hfull i hi; exact hval)
    (fun i hi => by
      obtain ⟨s, e, h1, h2, h3, h4, -, -, h5, -, -, h6, -, h7, -, -, -, h8⟩ := hfull i hi
      exact ⟨s, e, h3, h4, by omega, h6, h7, h5, h8⟩) hrec
  -- one realization
  set tab := intervalTable zs ro r.2 with htab
  set days := analyzedDays tab r.2 with hdays
  set p : List (Int × Cell) := days.map fun x =>
    (x.1.t, dayLoss tab (tab.map fun _ => some 1) (tab.map Interval.slope) x.1) with hp
  have hreal : ∀ dr, realization ord meth tab days dr = .ok (p, weightedRatio (days.map fun x =>
      (dayLoss tab (tab.map fun _ => some 1) (tab.map Interval.slope) x.1, x.1.insol))) := by
    intro dr
    unfold realization
    rw [hstart dr, drawSlopes_exact hexact]
    simp only [Except.map, List.map_map, hp]
    rfl
  obtain ⟨d1, d2, d3⟩ := C33_profile_days hord H hresult (hreal ⟨fun _ => 0, fun _ => 0, fun _ => 0⟩)
  simp only at d1 d2 d3
  have hpt : p.map Prod.fst = r.2.map SrrRow.t := by
    have hsorted : (r.2.map SrrRow.t).Pairwise (· < ·) := by rw [List.pairwise_map]; exact H.sorted
    refine List.Perm.eq_of_pairwise (le := (· < ·)) (fun a b _ _ h1 h2 => absurd h1 (by omega)) d1 hsorted ?_
    rw [List.perm_ext_iff_of_nodup (d1.imp fun h => ne_of_lt h) (hsorted.imp fun h => ne_of_lt h)]
    intro t
    rw [d3]
    constructor
    · rintro ⟨⟨d, hd, rfl⟩, -⟩
      exact List.mem_map.mpr ⟨d, hd, rfl⟩
    · intro ht
      obtain ⟨d, hd, rfl⟩ := List.mem_map.mp ht
      obtain ⟨i, hi, hrun⟩ := table_exists (zs := zs) htrim hd
      have := (table_covers H hi hd).mpr hrun.symm
      exact ⟨⟨d, hd, rfl⟩, ⟨i, hi, this.1⟩, ⟨i, hi, this.2⟩⟩
  have hdays_rows : days.map Prod.fst = r.2 := by
    have hsub : List.Sublist (days.map Prod.fst) r.2 := by
      rw [hdays]
      unfold analyzedDays
      cases tab with
      | nil => simp
      | cons i l =>
        simp only [List.map_map]
        have : (Prod.fst ∘ fun d => (d, intervalOfDay (i :: l) d)) = (id : SrrRow → SrrRow) := rfl
        rw [this, List.map_id]
        exact List.filter_sublist
    refine hsub.eq_of_length ?_
    have := congrArg List.length hpt
    simpa [hp] using this
  have hpr : p = r.2.map fun d => (d.t, dayLoss tab (tab.map fun _ => some 1) (tab.map Interval.slope) d) := by
    rw [hp]
    conv_rhs => rw [← hdays_rows, List.map_map]
    rfl
  have hloss : ∀ i s (hi : i < r.2.length), CleanedLast D s i →
      dayLoss tab (tab.map fun _ => some 1) (tab.map Interval.slope) r.2[i] = some (1 - (v s - v i) / f) := by
    intro i s hi hcl
    obtain ⟨iv, hiv, hrun⟩ := table_exists (zs := zs) htrim (List.getElem_mem hi)
    obtain ⟨k, hk, rfl⟩ := List.getElem_of_mem hiv
    rw [dayLoss_of_mem hnd (by simp) (by simp) hk hrun]
    simp only [List.getElem_map, Option.map_some, Option.some.injEq]
    obtain ⟨s', e, hs', he, -, hsD, hst, -, -, -, hall, -, -, hsl, -⟩ := hfull _ (List.getElem_mem hk)
    have hcl' := hall i hi hrun.symm
    obtain rfl : s' = s := by
      rcases lt_trichotomy s' s with g | g | g
      · rcases hcl.2.1 with h0 | h0
        · omega
        · have := hcl'.2.2 s h0 g; have := hcl.1; omega
      · exact g
      · rcases hcl'.2.1 with h0 | h0
        · omega
        · have := hcl.2.2 s' h0 g; have := hcl'.1; omega
    have hds : daysSince tab[k] r.2[i] = (i : Int) - s' := by
      unfold daysSince
      rw [hst, H.t_eq hi, H.t_eq hs']
      have : r.2[0].t + (i : Int) * dayNs - (r.2[0].t + (s' : Int) * dayNs) = ((i : Int) - s') * dayNs := by ring
      rw [this, Int.mul_ediv_cancel _ (ne_of_gt dayNs_pos')]
    rw [hds, hsl, hl s' i (by omega) hcl]
    push_cast
    field_simp
    ring
  have hsome : ∀ x ∈ days.map (fun x => (dayLoss tab (tab.map fun _ => some 1) (tab.map Interval.slope) x.1, x.1.insol)),
      x.1 ≠ none := by
    intro x hx
    obtain ⟨w, hw, rfl⟩ := List.mem_map.mp hx
    exact d2 (w.1.t, _) (List.mem_map.mpr ⟨w, hw, rfl⟩)
  have hinsol : ∀ w ∈ days, w.1.insol = (lookupK insol w.1.t).getD 0 := by
    intro w hw
    exact daily_insol hr (analyzedDays_mem hw).1
  have hsum1 : (days.map (fun x => (dayLoss tab (tab.map fun _ => some 1) (tab.map Interval.slope) x.1, x.1.insol))).map
      Prod.snd = p.map fun x => (lookupK insol x.1).getD 0 := by
    rw [hp, List.map_map, List.map_map]
    exact List.map_congr_left fun w hw => hinsol w hw
  have hpins : (p.map fun x => (lookupK insol x.1).getD 0) = pm.map fun x => (lookupK insol x.1).getD 0 := by
    have : (fun x : Int × Cell => (lookupK insol x.1).getD 0) = (fun t => (lookupK insol t).getD 0) ∘ Prod.fst := rfl
    rw [this, ← List.map_map, ← List.map_map, hpt, hrt]
  obtain ⟨q, hq, hq2⟩ := weightedRatio_some hsome (by rw [hsum1, hpins]; exact hins)
  rw [hsum1] at hq2
  have hsum2 : ((days.map fun x => (dayLoss tab (tab.map fun _ => some 1) (tab.map Interval.slope) x.1, x.1.insol)).map
      fun x : Cell × ℚ => x.1.getD 0 * x.2) = p.map fun x => x.2.getD 0 * (lookupK insol x.1).getD 0 := by
    rw [hp, List.map_map, List.map_map]
    exact List.map_congr_left fun w hw => by simp only [Function.comp]; rw [hinsol w hw]
  rw [hsum2] at hq2
  have hmonte : calcMonte ord meth tab days draws = .ok (draws.map fun _ => (p, some q)) := by
    unfold calcMonte
    exact mapM_const fun dr _ => by rw [hreal dr, hq]
  have hval : valids ((draws.map fun _ => (p, some q)).map Prod.snd) = draws.map fun _ => q := by
    rw [List.map_map]
    unfold valids
    rw [List.filterMap_map]
    clear hmonte hdraws
    induction draws with
    | nil => rfl
    | cons a l ih => simp
  have hpc : ∀ c : ℚ, 0 ≤ c → c ≤ 100 → percentileE (draws.map fun _ => q) c = .ok q := by
    intro c h0 h1
    refine percentileE_const h0 h1 (by simpa using hdraws) fun x hx => ?_
    obtain ⟨_, -, rfl⟩ := List.mem_map.mp hx
    rfl
  refine ⟨{ ratio := q, low := q, high := q, exceedance := q, renorm := r.1
            profiles := (draws.map fun _ => (p, some q)).map Prod.fst, table := tab
            perfect := (days.filter fun x => (x.2.map Interval.valid).getD false).map
              fun x => (x.1.t, lossPerfectClean x) }, p, ?_, ?_, ?_, ?_, hq2, rfl, rfl, rfl, ?_⟩
  · unfold soilingSrr
    rw [hinit]
    simp only [Except.bind]
    rw [hr]
    simp only [Except.bind]
    rw [hresult]
    simp only [Except.bind]
    rw [hmonte]
    simp only
    unfold srrSummary
    rw [if_neg (by simp)]
    simp only [hval]
    rw [hpc 50 (by norm_num) (by norm_num), hpc _ (by linarith) (by linarith), hpc _ (by linarith) (by linarith),
      hpc _ (by linarith) (by linarith)]
    rfl
  · simp
  · rw [hpt, hrt]
  · intro i s hi hcl
    have hi' : i < r.2.length := by omega
    rw [hpr, List.getElem?_map, List.getElem?_eq_getElem hi']
    simp only [Option.map_some]
    rw [hloss i s hi' hcl]
  · intro i hi
    obtain ⟨s, e, h1, h2, h3, h4, h5, h6, h7, h8, h9, h10, h11, h12, h13, h14, h15, h16⟩ := hfull i hi
    have ht : ∀ k (hk : k < r.2.length), (pm[k]?).map Prod.fst = some r.2[k].t := by
      intro k hk
      have := congrArg (fun L : List Int => L[k]?) hrt
      simp only [List.getElem?_map, List.getElem?_eq_getElem hk, Option.map_some] at this
      exact this.symm
    exact ⟨s, e, h3, by omega, h10, h8, by rw [ht s h1, h5], by rw [ht e h2, h6], h11, h12, h13, h14, h15, h16⟩

/-- the records of the examples soil linearly -/
theorem srrEx_linear : SoilsLinearly (SrrEx.saw 4 (1/10)) [4] 8 (1/10) ∧
    SoilsLinearly (SrrEx.saw 10 (1/100)) [10] 20 (1/100) := by
  have h1 : ∀ i < 8, ∀ s < 8, (s ≤ i ∧ (s = 0 ∨ s ∈ [4]) ∧ ∀ e ∈ [4], s < e → i < e) →
      SrrEx.saw 4 (1/10) i = SrrEx.saw 4 (1/10) s - (1/10) * ((i : ℚ) - (s : ℚ)) := by decide +kernel
  have h2 : ∀ i < 20, ∀ s < 20, (s ≤ i ∧ (s = 0 ∨ s ∈ [10]) ∧ ∀ e ∈ [10], s < e → i < e) →
      SrrEx.saw 10 (1/100) i = SrrEx.saw 10 (1/100) s - (1/100) * ((i : ℚ) - (s : ℚ)) := by decide +kernel
  exact ⟨⟨fun _ => 1/10, fun _ => by norm_num, fun s i hi h => h1 i hi s (by have := h.1; omega) h⟩,
    ⟨fun _ => 1/100, fun _ => by norm_num, fun s i hi h => h2 i hi s (by have := h.1; omega) h⟩⟩

/-- **C117 (perfect cleaning).** Let a system without gaps lose the same amount every day between cleanings, each
of which the given or inferred threshold detects. With the `perfect_clean` method every realization of the analysis
is the same: on day `i` the soiling ratio is one minus the performance lost since the last cleaning `s`, relative to
the factor `f` the performance is divided by. The reported soiling ratio is the mean of it weighted by insolation, and
the confidence limits and the exceedance level coincide with it. The reported intervals run from one cleaning to the
eve of the next, all are valid, and their slopes and confidence limits are the daily loss over `f`. -/
theorem C117_perfect_clean {ord : List Nat → List Nat} (hord : ∀ l, (ord l).Perm l) {zs : List (ℚ × ℚ) → ℚ}
    (hz : ∀ p, 0 ≤ zs p) {o : DailyOpts} {ro : ResultOpts} {exceed conf : ℚ} {draws : List SrrDraw}
    {pm insol : Series} {precip : Option Series} {v : Nat → ℚ} {D : List Nat} {n h L : Nat} {m f : ℚ}
    (hinit : srrInit pm insol precip = .ok ()) (hv : HasValues pm v n)
    (hpos : ∀ i < n, 0 < v i) (hf : FirstYear o.recenter v n f) (ho : o.dayScale = 2 * h + 1)
    (hc : o.criterion = .shift) (hl : SoilsLinearly v D n m)
    (hsp : Spaced D n L) (hL1 : o.dayScale ≤ L) (hL2 : ro.minIntervalLength < L)
    (hthr : ThresholdFits o v D h m f) (htrim : ro.trim = false) (hlen : 1 ≤ ro.minIntervalLength)
    (hrel : 0 < ro.maxRelSlopeError) (hneg : m < ro.maxNegativeStep * f)
    (hdraws : draws ≠ []) (hc0 : 0 ≤ conf) (hc1 : conf ≤ 100) (he0 : 0 ≤ exceed) (he1 : exceed ≤ 100)
    (hins : (pm.map fun x => (lookupK insol x.1).getD 0).sum ≠ 0) :
    ∃ out p, soilingSrr ord zs o ro .perfectClean exceed conf draws pm insol precip = .ok out ∧
      out.profiles = draws.map (fun _ => p) ∧ p.map Prod.fst = pm.map Prod.fst ∧
      (∀ i s, i < n → CleanedLast D s i → (p[i]?).map Prod.snd = some (some (1 - (v s - v i) / f))) ∧
      out.ratio * (p.map fun x => (lookupK insol x.1).getD 0).sum =
        (p.map fun x => x.2.getD 0 * (lookupK insol x.1).getD 0).sum ∧
      out.low = out.ratio ∧ out.high = out.ratio ∧ out.exceedance = out.ratio ∧
      ∀ i ∈ out.table, ∃ s e, s ≤ e ∧ e < n ∧ CleanedLast D s e ∧ (e + 1 = n ∨ e + 1 ∈ D) ∧
        (pm[s]?).map Prod.fst = some i.start ∧ (pm[e]?).map Prod.fst = some i.stop ∧ i.valid = true ∧
        i.slope * ((e : ℚ) - s) = (v e - v s) / f ∧ i.low = i.slope ∧ i.high = i.slope ∧
        i.infStart = v s / f ∧ i.infEnd = v e / f := by
  obtain ⟨rate, hb, hl⟩ := hl
  obtain ⟨out, p, a1, a2, a3, a4, a5, a6, a7, a8, a9⟩ := srr_ones hord hz (meth := .perfectClean) hinit hv hpos hf ho hc
    ((hb 0).1.trans (hb 0).2) hb hl hsp hL1 hL2 hthr htrim hlen hrel hneg (fun tab _ _ _ _ dr => rfl)
    hdraws hc0 hc1 he0 he1 hins
  refine ⟨out, p, a1, a2, a3, a4, a5, a6, a7, a8, fun i hi => ?_⟩
  obtain ⟨s, e, b1, b2, b3, b4, b5, b6, b7, b8, b9⟩ := a9 i hi
  refine ⟨s, e, b1, b2, b3, b4, b5, b6, b7, ?_, b9⟩
  rw [b8, hl s e b2 b3]
  ring

/-- the performance relative to its median 0.955, inferred threshold: the last day is reported at `1 - 0.09 / 0.955` -/
example : ∃ out p, soilingSrr id (fun _ => 1) { SrrEx.opts with dayScale := 5, cleanThreshold := none, recenter := true }
      { SrrEx.res with minIntervalLength := 7 } .perfectClean 95 (684/10) [SrrEx.draw0, SrrEx.draw0]
      SrrEx.pmSaw SrrEx.insolSaw none = .ok out ∧
    out.profiles = [p, p] ∧ (p[19]?).map Prod.snd = some (some (1 - (9/100) / (191/200))) := by
  obtain ⟨out, p, h1, h2, -, h4, -⟩ := C117_perfect_clean (ord := id) (fun _ => List.Perm.refl _)
    (zs := fun _ => 1) (fun _ => by norm_num)
    (o := { SrrEx.opts with dayScale := 5, cleanThreshold := none, recenter := true })
    (ro := { SrrEx.res with minIntervalLength := 7 }) (exceed := 95) (conf := 684/10)
    (draws := [SrrEx.draw0, SrrEx.draw0]) (pm := SrrEx.pmSaw) (insol := SrrEx.insolSaw) (precip := none) (n := 20) (h := 2)
    (L := 10) (f := 191/200) (by decide +kernel) (by unfold HasValues; decide +kernel) (by decide +kernel)
    (by rw [FirstYear, if_pos rfl, isMedian_iff]; decide +kernel) rfl rfl srrEx_linear.2
    (by unfold Spaced; decide +kernel) (by decide) (by decide)
    (Or.inr ⟨rfl, by norm_num, by decide +kernel, by unfold Restores; decide +kernel⟩) rfl (by decide) (by decide +kernel)
    (by decide +kernel) (by simp) (by norm_num) (by norm_num) (by norm_num) (by norm_num) (by decide +kernel)
  refine ⟨out, p, h1, h2, ?_⟩
  rw [h4 19 10 (by norm_num) (by unfold CleanedLast; decide)]
  decide +kernel

/-- **C117 (half-normal cleaning).** The same for the default `half_norm_clean` method if every cleaning, and the first day,
bring the performance to the factor `f` it is divided by: then every realization gives the performance itself, relative
to `f`, on every day. -/
theorem C117_half_norm {ord : List Nat → List Nat} (hord : ∀ l, (ord l).Perm l) {zs : List (ℚ × ℚ) → ℚ}
    (hz : ∀ p, 0 ≤ zs p) {o : DailyOpts} {ro : ResultOpts} {exceed conf : ℚ} {draws : List SrrDraw}
    {pm insol : Series} {precip : Option Series} {v : Nat → ℚ} {D : List Nat} {n h L : Nat} {m f : ℚ}
    (hinit : srrInit pm insol precip = .ok ()) (hv : HasValues pm v n)
    (hpos : ∀ i < n, 0 < v i) (hf : FirstYear o.recenter v n f) (ho : o.dayScale = 2 * h + 1)
    (hc : o.criterion = .shift) (hl : SoilsLinearly v D n m) (hclean : ∀ s, s = 0 ∨ s ∈ D → v s = f)
    (hsp : Spaced D n L) (hL1 : o.dayScale ≤ L) (hL2 : ro.minIntervalLength < L)
    (hthr : ThresholdFits o v D h m f) (htrim : ro.trim = false) (hlen : 1 ≤ ro.minIntervalLength)
    (hrel : 0 < ro.maxRelSlopeError) (hneg : m < ro.maxNegativeStep * f)
    (hdraws : draws ≠ []) (hc0 : 0 ≤ conf) (hc1 : conf ≤ 100) (he0 : 0 ≤ exceed) (he1 : exceed ≤ 100)
    (hins : (pm.map fun x => (lookupK insol x.1).getD 0).sum ≠ 0) :
    ∃ out p, soilingSrr ord zs o ro .halfNorm exceed conf draws pm insol precip = .ok out ∧
      out.profiles = draws.map (fun _ => p) ∧ p.map Prod.fst = pm.map Prod.fst ∧
      (∀ i < n, (p[i]?).map Prod.snd = some (some (v i / f))) ∧
      out.ratio * (p.map fun x => (lookupK insol x.1).getD 0).sum =
        (p.map fun x => x.2.getD 0 * (lookupK insol x.1).getD 0).sum ∧
      out.low = out.ratio ∧ out.high = out.ratio ∧ out.exceedance = out.ratio ∧
      ∀ i ∈ out.table, ∃ s e, s ≤ e ∧ e < n ∧ CleanedLast D s e ∧ (e + 1 = n ∨ e + 1 ∈ D) ∧
        (pm[s]?).map Prod.fst = some i.start ∧ (pm[e]?).map Prod.fst = some i.stop ∧ i.valid = true ∧
        i.slope * ((e : ℚ) - s) = (v e - v s) / f ∧ i.low = i.slope ∧ i.high = i.slope ∧
        i.infStart = v s / f ∧ i.infEnd = v e / f := by
  obtain ⟨rate, hb, hl⟩ := hl
  have hf0 := firstYear_pos hf hpos
  have hone : ∀ tab : List Interval, (∀ i ∈ tab, i.low = i.slope ∧ i.high = i.slope) →
      (∀ i ∈ tab, i.valid = true) →
      (∀ i ∈ tab, ∃ s e, s ≤ e ∧ (s = 0 ∨ s ∈ D) ∧ e < n ∧ CleanedLast D s e ∧ i.slope = -(rate s / f) ∧
        i.length = (e : Int) - s ∧ i.infEnd = v e / f) →
      (∀ k (hk : k < tab.length), tab[k].recovery = none ∨ ∃ s, (s = 0 ∨ s ∈ D) ∧
        tab[k].recovery = some (max 0 (min 1 (max 0 (min 1 (v s / f)) - tab[k].infEnd)))) →
      ∀ dr, startLosses ord .halfNorm dr tab = .ok (tab.map fun _ => some 1) := by
    intro tab h1 h2 h3 h4 dr
    refine startLosses_ones h1 fun i hi => ⟨h2 i hi, fun y => ?_⟩
    obtain ⟨k, hk, rfl⟩ := List.getElem_of_mem hi
    obtain ⟨s, e, hse, hs, hen, hcl, hsl, hlen, hinf⟩ := h3 _ hi
    have hve := hl s e hen hcl
    have hvs := hclean s hs
    have he0 : 0 < v e / f := div_pos (hpos e hen) hf0
    have he1 : v e / f ≤ 1 := by
      rw [div_le_one hf0, hve, hvs]
      have : (0 : ℚ) ≤ (e : ℚ) - s := by
        have : (s : ℚ) ≤ e := by exact_mod_cast hse
        linarith
      have := mul_nonneg (hb s).1 this
      linarith
    have heq : 1 + tab[k].slope * (tab[k].length : ℚ) = tab[k].infEnd := by
      rw [hsl, hlen, hinf, hve, hvs]
      push_cast
      field_simp
      ring
    refine nextStart_full ?_ heq (by rw [heq, hinf]; exact he0.le)
    rcases h4 k hk with g | ⟨s', hs', g⟩
    · exact Or.inl g
    · right
      rw [g, hclean s' hs', div_self hf0.ne', hinf, min_self, max_eq_right zero_le_one, min_eq_right (by linarith),
        max_eq_right (by linarith)]
  obtain ⟨out, p, a1, a2, a3, a4, a5, a6, a7, a8, a9⟩ := srr_ones hord hz (meth := .halfNorm) hinit hv hpos hf ho hc
    ((hb 0).1.trans (hb 0).2) hb hl hsp hL1 hL2 hthr htrim hlen hrel hneg hone hdraws hc0 hc1 he0 he1 hins
  refine ⟨out, p, a1, a2, a3, fun i hi => ?_, a5, a6, a7, a8, fun i hi => ?_⟩
  · obtain ⟨s, hs⟩ := cleanedLast_exists D i
    rw [a4 i s hi hs, hclean s hs.2.1]
    congr 2
    field_simp
    ring
  · obtain ⟨s, e, b1, b2, b3, b4, b5, b6, b7, b8, b9⟩ := a9 i hi
    refine ⟨s, e, b1, b2, b3, b4, b5, b6, b7, ?_, b9⟩
    rw [b8, hl s e b2 b3]
    ring

example : ∃ out p, soilingSrr id (fun _ => 1) SrrEx.opts SrrEx.res .halfNorm 95 (684/10) [SrrEx.draw0, SrrEx.draw0]
      SrrEx.pm SrrEx.insol none = .ok out ∧
    out.profiles = [p, p] ∧ (p[7]?).map Prod.snd = some (some (7/10)) ∧ out.low = out.ratio := by
  obtain ⟨out, p, h1, h2, -, h4, -, h5, -⟩ := C117_half_norm (ord := id) (fun _ => List.Perm.refl _)
    (zs := fun _ => 1) (fun _ => by norm_num) (o := SrrEx.opts) (ro := SrrEx.res) (exceed := 95) (conf := 684/10)
    (draws := [SrrEx.draw0, SrrEx.draw0]) (pm := SrrEx.pm) (insol := SrrEx.insol) (precip := none) (n := 8) (h := 0)
    (L := 4) (f := 1) (by decide +kernel) (by unfold HasValues; decide +kernel) (by decide +kernel)
    (by simp [FirstYear, SrrEx.opts]) rfl rfl srrEx_linear.1
    (fun s hs => by rcases hs with rfl | hs
                    · decide +kernel
                    · rw [List.mem_singleton] at hs; subst hs; decide +kernel)
    (by unfold Spaced; decide +kernel) (by decide) (by decide)
    (Or.inl ⟨1/10, rfl, by norm_num, by unfold Restores; decide +kernel⟩) rfl (by decide) (by decide +kernel)
    (by decide +kernel) (by simp) (by norm_num) (by norm_num) (by norm_num) (by norm_num) (by decide +kernel)
  refine ⟨out, p, h1, h2, ?_, h5⟩
  rw [h4 7 (by norm_num)]
  decide +kernel

end Verif
