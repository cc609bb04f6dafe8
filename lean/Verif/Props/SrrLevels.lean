import Verif.Lemmas.Quantile
import Verif.Lemmas.SrrLevels
import Verif.Props.SrrMonte
import Verif.Lemmas.SrrExample

/-! # Properties C33 (profiles, continued), C34 (soiling ratio), C35 (levels of invalid intervals) and
C36 (errors of the whole analysis) -/

namespace Verif
open Spec

/-- **C33 (profile days).** Every profile has exactly one value for each day from the first to the last
day of the intervals looked at, for every cleaning assumption and all random numbers, whatever the
order in which Python visits its sets. -/
theorem C33_profile_days {ord : List Nat → List Nat} (hord : ∀ l, (ord l).Perm l)
    {zs : List (ℚ × ℚ) → ℚ} {o : ResultOpts} {rows : List SrrRow} (H : DailyRows rows) {m : SrrMethod}
    {dr : SrrDraw} {r : List Interval × List (SrrRow × Option Interval)}
    (h : calcResultDf zs o rows = .ok r) {out : List (Int × Cell) × Cell}
    (hout : realization ord m r.1 r.2 dr = .ok out) :
    (out.1.map Prod.fst).Pairwise (· < ·) ∧ (∀ x ∈ out.1, x.2 ≠ none) ∧
    ∀ t, t ∈ out.1.map Prod.fst ↔
      (∃ d ∈ rows, d.t = t) ∧ (∃ i ∈ r.1, i.start ≤ t) ∧ ∃ i ∈ r.1, t ≤ i.stop := by
  obtain ⟨h1, h2, -⟩ := calcResultDf_ok h
  obtain ⟨starts, hst, e1, -⟩ := realization_ok hout
  obtain ⟨hlen, hsome⟩ := startLosses_some hord hst
  have hnd : (r.1.map Interval.run).Nodup := by
    rw [h1, table_runs]; exact (runList_sorted o.trim rows).imp fun h => h.ne
  have hfst : out.1.map Prod.fst = r.2.map fun x => x.1.t := by
    rw [e1, List.map_map]; rfl
  refine ⟨?_, fun x hx => ?_, fun t => ?_⟩
  · rw [hfst, h2]
    unfold analyzedDays
    cases r.1 with
    | nil => simp
    | cons i l =>
      simp only [List.map_map]
      rw [List.pairwise_map]
      exact H.sorted.sublist List.filter_sublist
  · rw [e1, List.mem_map] at hx
    obtain ⟨w, hw, rfl⟩ := hx
    rw [h2] at hw
    obtain ⟨k, hk, hr⟩ : ∃ k, ∃ hk : k < r.1.length, r.1[k].run = w.1.run := by
      have hw' := hw
      rw [h1] at hw'
      have := analyzed_run H hw'
      simp only [← h1] at this
      exact this
    simp only
    rw [dayLoss_of_mem hnd hlen (drawSlopes_length _ _) hk hr]
    have := hsome (starts[k]'(by omega)) (List.getElem_mem _)
    cases hs : starts[k]'(by omega) with
    | none => exact absurd hs this
    | some s => simp
  · rw [hfst, h2]
    have hsorted : ∀ i ∈ r.1, ∀ j ∈ r.1, i.run ≤ j.run → i.start ≤ j.start ∧ i.stop ≤ j.stop := by
      intro i hi j hj hij
      rw [h1] at hi hj
      obtain ⟨a, z, ha, hz, har, hzr, b1, b2, -⟩ := table_bounds hi
      obtain ⟨a', z', ha', hz', har', hzr', c1, c2, -⟩ := table_bounds hj
      have hi1 := (table_covers H hi ha).mpr har
      have hj1 := (table_covers H hj ha').mpr har'
      have hi2 := (table_covers H hi hz).mpr hzr
      have hj2 := (table_covers H hj hz').mpr hzr'
      rcases Nat.lt_or_eq_of_le hij with hlt | heq
      · have g1 : ¬ a'.t ≤ z.t := fun hle => by
          have := H.mono_mem ha' hz hle; omega
        omega
      · have : i = j := table_unique hi hj heq
        rw [this]; exact ⟨le_refl _, le_refl _⟩
    have hpw : (r.1.map Interval.run).Pairwise (· < ·) := by
      rw [h1, table_runs]; exact runList_sorted _ _
    clear h1 h2 hst e1 hlen hsome hnd hfst hout h
    unfold analyzedDays
    cases hT : r.1 with
    | nil => simp
    | cons i l =>
      rw [hT] at hsorted hpw
      have hz : (i :: l).getLast (by simp) ∈ i :: l := List.getLast_mem _
      have first : ∀ j ∈ i :: l, i.run ≤ j.run := by
        intro j hj
        rcases List.mem_cons.mp hj with rfl | hj
        · exact le_refl _
        · simp only [List.map_cons, List.pairwise_cons] at hpw
          exact (hpw.1 j.run (List.mem_map.mpr ⟨j, hj, rfl⟩)).le
      have last : ∀ j ∈ i :: l, j.run ≤ ((i :: l).getLast (by simp)).run := by
        intro j hj
        have hsp := List.dropLast_append_getLast (l := i :: l) (by simp)
        rw [← hsp] at hj hpw
        rcases List.mem_append.mp hj with hj | hj
        · rw [List.map_append, List.pairwise_append] at hpw
          exact (hpw.2.2 j.run (List.mem_map.mpr ⟨j, hj, rfl⟩) _ (by simp)).le
        · simp only [List.mem_singleton] at hj
          rw [hj]
      simp only [List.map_map, List.mem_map, List.mem_filter, Function.comp, decide_eq_true_eq]
      constructor
      · rintro ⟨d, ⟨hd, g1, g2⟩, rfl⟩
        exact ⟨⟨d, hd, rfl⟩, ⟨i, by simp, g1⟩, ⟨_, hz, g2⟩⟩
      · rintro ⟨⟨d, hd, rfl⟩, ⟨j, hj, g1⟩, ⟨j', hj', g2⟩⟩
        refine ⟨d, ⟨hd, ?_, ?_⟩, rfl⟩
        · exact (hsorted i (by simp) j hj (first j hj)).1.trans g1
        · exact g2.trans (hsorted j' hj' _ hz (last j' hj')).2

/-! ### C34 -/

/-- the insolation of a prepared day is that of the input at its timestamp, zero if missing -/
theorem daily_insol {o : DailyOpts} {pm insol : Series} {precip : Option Series}
    {r : Cell × List SrrRow} (h : calcDailyDf o pm insol precip = .ok r) {d : SrrRow} (hd : d ∈ r.2) :
    d.insol = (lookupK insol d.t).getD 0 := by
  obtain ⟨hne, hds, ev, hev, h1, h2⟩ := calcDailyDf_ok h
  have hsub : ∀ e ∈ trimMissing (srrJoin pm insol precip), e.insol = lookupK insol e.t := by
    intro e he
    have := (trimMissing_infix (srrJoin pm insol precip)).subset he
    unfold srrJoin at this
    obtain ⟨x, -, rfl⟩ := List.mem_map.mp this
    rfl
  have hevl : ev.length = (trimMissing (srrJoin pm insol precip)).length := by
    have := srrCriterion_length (by simp [srrDetected, srrDelta_length, srrNorm_length]) hev
    simpa using this
  have hwl : (withOutages o.dayScale (srrNorm r.1 ((trimMissing (srrJoin pm insol precip)).map SrrDay.pi)) ev).length
      = (trimMissing (srrJoin pm insol precip)).length := by
    rw [withOutages_length (by rw [srrNorm_length]; simpa using hevl), srrNorm_length]; simp
  rw [h2] at hd
  obtain ⟨k, hk, rfl⟩ := List.getElem_of_mem hd
  rw [srrRows_length] at hk
  rw [srrRows_getElem hk hwl]
  simp only
  rw [hsub _ (List.getElem_mem hk)]

theorem weightedRatio_sum {l : List (Cell × ℚ)} {v : ℚ} (h : weightedRatio l = some v)
    (hs : ∀ x ∈ l, x.1 ≠ none) :
    (l.map Prod.snd).sum ≠ 0 ∧ v * (l.map Prod.snd).sum = (l.map fun x => x.1.getD 0 * x.2).sum := by
  have hp : (l.filterMap fun x => x.1.map fun v => (v, x.2)) = l.map fun x => (x.1.getD 0, x.2) := by
    clear h
    induction l with
    | nil => rfl
    | cons x l ih =>
      obtain ⟨c, w⟩ := x
      cases c with
      | none => exact absurd rfl (hs (none, w) (by simp))
      | some a => simp [ih fun x hx => hs x (by simp [hx])]
  unfold weightedRatio at h
  simp only [hp, List.map_map] at h
  split_ifs at h with h0
  simp only [Option.some.injEq] at h
  have e1 : (l.map Prod.snd) = l.map (Prod.snd ∘ fun x : Cell × ℚ => (x.1.getD 0, x.2)) := by
    apply List.map_congr_left; intro x _; rfl
  rw [e1]
  refine ⟨h0, ?_⟩
  rw [← h, div_mul_cancel₀ _ h0]
  rfl

theorem percentileE_isQuantile {l : List ℚ} {p v : ℚ} (h : percentileE l p = .ok v) : IsQuantile l (p / 100) v := by
  obtain ⟨a, b, c⟩ := percentileE_ok h
  exact (isQuantile_iff (by positivity) (by linarith)).mpr c

/-- **C34 (weighted mean, median, interval).** Behind the reported soiling ratio there is one ratio per
profile; each is the insolation-weighted mean of the profile (insolation missing counts as zero); the
reported ratio is their median, the reported interval brackets it for every confidence level, and its
ends and the exceedance level are the corresponding percentiles. -/
theorem C34_weighted_mean {ord : List Nat → List Nat} (hord : ∀ l, (ord l).Perm l)
    {zs : List (ℚ × ℚ) → ℚ} {o : DailyOpts} {ro : ResultOpts} {m : SrrMethod} {exceed conf : ℚ}
    {draws : List SrrDraw} {pm insol : Series} {precip : Option Series} {out : SrrOut}
    (h : soilingSrr ord zs o ro m exceed conf draws pm insol precip = .ok out) :
    ∃ ratios : List ℚ, List.Forall₂ (fun v p =>
        (p.map fun x : Int × Cell => (lookupK insol x.1).getD 0).sum ≠ 0 ∧
        v * (p.map fun x : Int × Cell => (lookupK insol x.1).getD 0).sum =
          (p.map fun x : Int × Cell => x.2.getD 0 * (lookupK insol x.1).getD 0).sum) ratios out.profiles ∧
      out.profiles.length = draws.length ∧ IsMedian ratios out.ratio ∧
      (0 ≤ conf → out.low ≤ out.ratio ∧ out.ratio ≤ out.high) ∧
      IsQuantile ratios ((50 - conf / 2) / 100) out.low ∧
      IsQuantile ratios ((50 + conf / 2) / 100) out.high ∧
      IsQuantile ratios ((100 - exceed) / 100) out.exceedance := by
  obtain ⟨hinit, d, hdd, r, hr, mc, hmc, hs⟩ := soilingSrr_ok h
  obtain ⟨H, -⟩ := calcDailyDf_rows hinit hdd
  obtain ⟨h1, h2, -⟩ := calcResultDf_ok hr
  obtain ⟨hall, q50, qlo, qhi, qex, -, hprof, -, -⟩ := srrSummary_ok hs
  have hf := calcMonte_ok hmc
  refine ⟨valids (mc.map Prod.snd), ?_, ?_, ?_, ?_, ?_, ?_, ?_⟩
  · rw [hprof]
    clear q50 qlo qhi qex hprof hs hmc h
    induction hf with
    | nil => exact List.Forall₂.nil
    | @cons dr out drs outs hreal _ ih =>
      obtain ⟨v, hv⟩ := hall out (by simp)
      have hval : valids ((out :: outs).map Prod.snd) = v :: valids (outs.map Prod.snd) := by
        simp [valids, hv]
      rw [hval, List.map_cons]
      refine List.Forall₂.cons ?_ (ih fun x hx => hall x (by simp [hx]))
      obtain ⟨-, hsome, -⟩ := C33_profile_days hord H hr hreal
      obtain ⟨starts, hst, e1, e2⟩ := realization_ok hreal
      have := weightedRatio_sum (v := v) (by rw [← e2]; exact hv) (by
        intro x hx
        obtain ⟨w, hw, rfl⟩ := List.mem_map.mp hx
        exact hsome (w.1.t, _) (by rw [e1]; exact List.mem_map.mpr ⟨w, hw, rfl⟩))
      simp only [List.map_map] at this
      have hin : ∀ w ∈ r.2, w.1.insol = (lookupK insol w.1.t).getD 0 := by
        intro w hw
        rw [h2] at hw
        exact daily_insol hdd (analyzedDays_mem hw).1
      have s1 : (r.2.map (Prod.snd ∘ fun x => (dayLoss r.1 starts (drawSlopes dr.slope r.1) x.1, x.1.insol))) =
          (out.1.map fun x : Int × Cell => (lookupK insol x.1).getD 0) := by
        rw [e1, List.map_map]
        exact List.map_congr_left fun w hw => hin w hw
      have s2 : (r.2.map ((fun x : Cell × ℚ => x.1.getD 0 * x.2) ∘
            fun x => (dayLoss r.1 starts (drawSlopes dr.slope r.1) x.1, x.1.insol))) =
          (out.1.map fun x : Int × Cell => x.2.getD 0 * (lookupK insol x.1).getD 0) := by
        rw [e1, List.map_map]
        exact List.map_congr_left fun w hw => by simp only [Function.comp]; rw [hin w hw]
      rw [s1, s2] at this
      exact this
  · rw [hprof, List.length_map, hf.length_eq]
  · rw [isMedian_iff]
    have := (percentileE_ok q50).2.2
    rw [show (50 : ℚ) / 100 = 1 / 2 by norm_num] at this
    exact this
  · intro hc
    exact ⟨percentileE_mono qlo q50 (by linarith), percentileE_mono q50 qhi (by linarith)⟩
  · exact percentileE_isQuantile qlo
  · exact percentileE_isQuantile qhi
  · exact percentileE_isQuantile qex

/-- **C34 (range).** With non-negative insolation the reported ratio, its interval and the exceedance
level lie between any bounds of the profile values. -/
theorem C34_between {ord : List Nat → List Nat} {zs : List (ℚ × ℚ) → ℚ} {o : DailyOpts}
    {ro : ResultOpts} {m : SrrMethod} {exceed conf : ℚ} {draws : List SrrDraw} {pm insol : Series}
    {precip : Option Series} {out : SrrOut}
    (h : soilingSrr ord zs o ro m exceed conf draws pm insol precip = .ok out)
    (hins : ∀ t x, lookupK insol t = some x → 0 ≤ x) {a b : ℚ}
    (hab : ∀ p ∈ out.profiles, ∀ x ∈ p, ∀ y, x.2 = some y → a ≤ y ∧ y ≤ b) :
    (a ≤ out.ratio ∧ out.ratio ≤ b) ∧ (a ≤ out.low ∧ out.low ≤ b) ∧ (a ≤ out.high ∧ out.high ≤ b) ∧
      (a ≤ out.exceedance ∧ out.exceedance ≤ b) := by
  obtain ⟨hinit, d, hdd, r, hr, mc, hmc, hs⟩ := soilingSrr_ok h
  obtain ⟨h1, h2, -⟩ := calcResultDf_ok hr
  obtain ⟨hall, q50, qlo, qhi, qex, -, hprof, -, -⟩ := srrSummary_ok hs
  have key : ∀ v ∈ valids (mc.map Prod.snd), a ≤ v ∧ v ≤ b := by
    intro v hv
    unfold valids at hv
    simp only [List.mem_filterMap, List.mem_map, id] at hv
    obtain ⟨c, ⟨y, hy, rfl⟩, hv⟩ := hv
    obtain ⟨dr, hdr, hreal⟩ := profile_mem hmc hy
    obtain ⟨starts, hst, e1, e2⟩ := realization_ok hreal
    rw [e2] at hv
    refine weightedRatio_bounds hv ?_ ?_
    · intro x hx
      obtain ⟨w, hw, rfl⟩ := List.mem_map.mp hx
      simp only
      rw [h2] at hw
      rw [daily_insol hdd (analyzedDays_mem hw).1]
      cases hl : lookupK insol w.1.t with
      | none => simp
      | some q => exact hins _ _ hl
    · intro x hx z hz
      obtain ⟨w, hw, rfl⟩ := List.mem_map.mp hx
      refine hab y.1 (by rw [hprof]; exact List.mem_map.mpr ⟨y, hy, rfl⟩) (w.1.t, some z) ?_ z rfl
      rw [e1, List.mem_map]
      exact ⟨w, hw, by rw [← hz]⟩
  exact ⟨⟨percentileE_ge q50 fun v hv => (key v hv).1, percentileE_le q50 fun v hv => (key v hv).2⟩,
    ⟨percentileE_ge qlo fun v hv => (key v hv).1, percentileE_le qlo fun v hv => (key v hv).2⟩,
    ⟨percentileE_ge qhi fun v hv => (key v hv).1, percentileE_le qhi fun v hv => (key v hv).2⟩,
    ⟨percentileE_ge qex fun v hv => (key v hv).1, percentileE_le qex fun v hv => (key v hv).2⟩⟩

/-! ### C35 -/

/-- The claim on one profile: during an invalid interval it is constant at a level between its value on
the last day of the valid interval before (1 if there is none) and its value on the first day of the
valid interval after (1 if there is none). -/
def Spec.LevelsBetween (tab : List Interval) (profile : List (Int × Cell)) : Prop :=
  ∀ k (hk : k < tab.length), tab[k].valid = false → ∃ s e n,
    (∀ x ∈ profile, tab[k].start ≤ x.1 → x.1 ≤ tab[k].stop → x.2 = some s) ∧
    ((∃ j, ∃ hj : j < k, tab[j].valid = true ∧
        (∀ i (hi : i < tab.length), j < i → i < k → tab[i].valid = false) ∧ (tab[j].stop, some e) ∈ profile) ∨
      ((∀ i (hi : i < tab.length), i < k → tab[i].valid = false) ∧ e = 1)) ∧
    ((∃ j, ∃ hj : j < tab.length, k < j ∧ tab[j].valid = true ∧
        (∀ i (hi : i < tab.length), k < i → i < j → tab[i].valid = false) ∧ (tab[j].start, some n) ∈ profile) ∨
      ((∀ i (hi : i < tab.length), k < i → tab[i].valid = false) ∧ n = 1)) ∧
    min e n ≤ s ∧ s ≤ max e n

theorem exists_last_valid (tab : List Interval) (k : Nat) (hk : k ≤ tab.length) :
    (∃ j, ∃ hj : j < k, tab[j].valid = true ∧
        ∀ i (hi : i < tab.length), j < i → i < k → tab[i].valid = false) ∨
    ∀ i (hi : i < tab.length), i < k → tab[i].valid = false := by
  induction k with
  | zero => right; intro i _ hi; omega
  | succ k ih =>
    cases hv : (tab[k]'(by omega)).valid with
    | true =>
      left
      exact ⟨k, by omega, hv, fun i hi h1 h2 => by omega⟩
    | false =>
      rcases ih (by omega) with ⟨j, hj, h1, h2⟩ | h
      · left
        refine ⟨j, by omega, h1, fun i hi g1 g2 => ?_⟩
        rcases Nat.lt_or_ge i k with g | g
        · exact h2 i hi g1 g
        · obtain rfl : i = k := by omega
          exact hv
      · right
        intro i hi g
        rcases Nat.lt_or_ge i k with g' | g'
        · exact h i hi g'
        · obtain rfl : i = k := by omega
          exact hv

theorem exists_next_valid (tab : List Interval) (d k : Nat) (hk : k + d = tab.length) :
    (∃ j, ∃ hj : j < tab.length, k ≤ j ∧ tab[j].valid = true ∧
        ∀ i (hi : i < tab.length), k ≤ i → i < j → tab[i].valid = false) ∨
    ∀ i (hi : i < tab.length), k ≤ i → tab[i].valid = false := by
  induction d generalizing k with
  | zero => right; intro i hi h; omega
  | succ d ih =>
    cases hv : (tab[k]'(by omega)).valid with
    | true =>
      left
      exact ⟨k, by omega, le_refl _, hv, fun i hi h1 h2 => by omega⟩
    | false =>
      rcases ih (k + 1) (by omega) with ⟨j, hj, h0, h1, h2⟩ | h
      · left
        refine ⟨j, hj, by omega, h1, fun i hi g1 g2 => ?_⟩
        rcases Nat.lt_or_eq_of_le g1 with g | g
        · exact h2 i hi g g2
        · subst g; exact hv
      · right
        intro i hi g
        rcases Nat.lt_or_eq_of_le g with g' | g'
        · exact h i hi g'
        · subst g'; exact hv

theorem uniform_between {a b u : ℚ} (h0 : 0 ≤ u) (h1 : u ≤ 1) :
    min a b ≤ uniform a b u ∧ uniform a b u ≤ max a b :=
  ⟨uniform_ge h0 h1 (min_le_left _ _) (min_le_right _ _),
   uniform_le h0 h1 (le_max_left _ _) (le_max_right _ _)⟩

/-- **C35 (partial).** If the set of groups happens to be visited in increasing order, the claim holds
for every result table and all random numbers, for both methods that draw levels. Missing: the code
relies on the iteration order of a Python set, which is increasing only while the group numbers are
below the size of its hash table; see `C35_levels_refuted`. -/
theorem C35_levels_partial {ord : List Nat → List Nat}
    (hord : ∀ l : List Nat, l.Nodup → (ord l).Perm l ∧ (ord l).Pairwise (· < ·))
    {zs : List (ℚ × ℚ) → ℚ} (hz : ∀ p, 0 ≤ zs p) {o : ResultOpts} {rows : List SrrRow} (H : DailyRows rows)
    {m : SrrMethod} (hm : m ≠ .perfectClean) {dr : SrrDraw} (hd : ValidDraw m dr)
    {r : List Interval × List (SrrRow × Option Interval)} (h : calcResultDf zs o rows = .ok r)
    {out : List (Int × Cell) × Cell} (hout : realization ord m r.1 r.2 dr = .ok out) :
    LevelsBetween r.1 out.1 := by
  obtain ⟨h1, h2, -⟩ := calcResultDf_ok h
  have T : SoilingTable r.1 := by rw [h1]; exact soilingTable_of hz H
  obtain ⟨starts, hst, e1, -⟩ := realization_ok hout
  obtain ⟨se, hse, hsl, hval, hinv, j, hlev⟩ := startLosses_levels hord hm hst
  have hin : ∀ k (hk : k < r.1.length), r.1[k] ∈ intervalTable zs o rows := by
    intro k hk
    rw [← h1]
    exact List.getElem_mem hk
  have hcov : ∀ k (hk : k < r.1.length), ∀ d ∈ rows,
      (r.1[k].start ≤ d.t ∧ d.t ≤ r.1[k].stop) ↔ d.run = r.1[k].run := by
    intro k hk d hd
    exact table_covers H (hin k hk) hd
  -- the value of a day of interval k
  have hday : ∀ k (hk : k < r.1.length) (w : SrrRow), w ∈ rows → w.run = r.1[k].run →
      dayLoss r.1 starts (drawSlopes dr.slope r.1) w =
        (starts[k]).map fun s => s + daysSince r.1[k] w * uniform r.1[k].low r.1[k].high (dr.slope k) := by
    intro k hk w hw hr
    rw [dayLoss_of_mem T.runs hsl (drawSlopes_length _ _) hk hr.symm]
    congr 1
    funext s
    rw [drawSlopes_getElem dr.slope r.1 hk]
  -- first and last days are analysed
  have hmem : ∀ k (hk : k < r.1.length) (w : SrrRow), w ∈ rows → w.run = r.1[k].run →
      (w.t, dayLoss r.1 starts (drawSlopes dr.slope r.1) w) ∈ out.1 := by
    intro k hk w hw hr
    have hb := (hcov k hk w hw).mpr hr
    -- days between first start and last stop
    have : ∃ x ∈ r.2, x.1 = w := by
      rw [h2]
      have hpw : (r.1.map Interval.run).Pairwise (· < ·) := by
        rw [h1, table_runs]; exact runList_sorted _ _
      have hle : ∀ a b (ha : a < r.1.length) (hb : b < r.1.length), a ≤ b → ∀ d ∈ rows, ∀ e ∈ rows,
          d.run = r.1[a].run → e.run = r.1[b].run → a < b → d.t ≤ e.t := by
        intro a b ha hb hab d hd e he hdr her hlt
        have hrl : r.1[a].run < r.1[b].run := by
          have := List.pairwise_iff_getElem.mp hpw a b (by simpa using ha) (by simpa using hb) hlt
          simpa using this
        by_contra hc
        have := H.mono_mem he hd (by omega)
        omega
      have bounds : ∀ a (ha : a < r.1.length), ∃ p ∈ rows, ∃ q ∈ rows, p.run = r.1[a].run ∧
          q.run = r.1[a].run ∧ r.1[a].start = p.t ∧ r.1[a].stop = q.t := by
        intro a ha
        obtain ⟨p, q, hp, hq, b1, b2, b3, b4, -⟩ := table_bounds (hin a ha)
        exact ⟨p, hp, q, hq, b1, b2, b3, b4⟩
      have hfirst : (r.1[0]'(by omega)).start ≤ w.t := by
        rcases Nat.eq_zero_or_pos k with g | g
        · subst g; exact hb.1
        · obtain ⟨p, hp, q, hq, b1, b2, b3, b4⟩ := bounds 0 (by omega)
          rw [b3]
          exact hle 0 k (by omega) hk (by omega) p hp w hw b1 hr g
      have hlast : w.t ≤ (r.1[r.1.length - 1]'(by omega)).stop := by
        rcases Nat.lt_or_eq_of_le (show k ≤ r.1.length - 1 by omega) with g | g
        · obtain ⟨p, hp, q, hq, b1, b2, b3, b4⟩ := bounds (r.1.length - 1) (by omega)
          rw [b4]
          exact hle k (r.1.length - 1) hk (by omega) (by omega) w hw q hq hr b2 g
        · simp only [← g]; exact hb.2
      unfold analyzedDays
      cases hT : r.1 with
      | nil => rw [hT] at hk; simp at hk
      | cons i l =>
        simp only [hT, List.getElem_cons_zero] at hfirst
        simp only [hT] at hlast
        simp only [List.mem_map, List.mem_filter, decide_eq_true_eq]
        refine ⟨_, ⟨w, ⟨hw, hfirst, ?_⟩, rfl⟩, rfl⟩
        rw [List.getLast_eq_getElem]
        exact hlast
    obtain ⟨x, hx, rfl⟩ := this
    rw [e1, List.mem_map]
    exact ⟨x, hx, rfl⟩
  have bounds : ∀ a (ha : a < r.1.length), ∃ p ∈ rows, ∃ q ∈ rows, p.run = r.1[a].run ∧
      q.run = r.1[a].run ∧ r.1[a].start = p.t ∧ r.1[a].stop = q.t ∧
      r.1[a].length = (q.day : Int) - p.day := by
    intro a ha
    obtain ⟨p, q, hp, hq, b1, b2, b3, b4, b5, -⟩ := table_bounds (hin a ha)
    exact ⟨p, hp, q, hq, b1, b2, b3, b4, b5⟩
  intro k hk hv
  refine ⟨_, ((ffill (se.map Prod.snd))[k]'(by simp [ffill, ffillFrom_length]; omega)).getD 1,
    ((bfill (se.map Prod.fst))[k]'(by simp [bfill_length]; omega)).getD 1, ?_, ?_, ?_,
    uniform_between (hd.level (j ((r.1.take (k + 1)).countP Interval.valid))).1
      (hd.level (j ((r.1.take (k + 1)).countP Interval.valid))).2⟩
  · intro x hx g1 g2
    rw [e1, List.mem_map] at hx
    obtain ⟨w, hw, rfl⟩ := hx
    rw [h2] at hw
    have hrow := (analyzedDays_mem hw).1
    have hr := (hcov k hk w.1 hrow).mp ⟨g1, g2⟩
    simp only
    rw [hday k hk w.1 hrow hr, hlev k hk hv]
    obtain ⟨z1, z2⟩ := T.invalid _ (List.getElem_mem hk) hv
    rw [z1, z2]
    simp [uniform]
  · rcases exists_last_valid r.1 k hk.le with ⟨i, hi, hvi, hbet⟩ | hnone
    · left
      obtain ⟨a, ha1, ha2⟩ := hval i (by omega) hvi
      refine ⟨i, hi, hvi, hbet, ?_⟩
      have hff : (ffill (se.map Prod.snd))[k]'(by simp [ffill, ffillFrom_length]; omega) =
          some (a + uniform r.1[i].low r.1[i].high (dr.slope i) * r.1[i].length) := by
        unfold ffill
        apply ffillFrom_getElem (j := i) (by omega) (by simp; omega)
        · rw [List.getElem_map, ha2]
        · intro q hq q1 q2
          simp only [List.length_map] at hq
          rw [List.getElem_map]
          rcases Nat.lt_or_eq_of_le q2 with g | g
          · rw [hinv q (by omega) (hbet q (by omega) q1 g)]
          · subst g; rw [hinv q (by omega) hv]
      rw [hff]
      obtain ⟨p, hp, q, hq, b1, b2, b3, b4, b5⟩ := bounds i (by omega)
      have := hmem i (by omega) q hq b2
      rw [hday i (by omega) q hq b2, ha1] at this
      rw [b4]
      convert this using 2
      simp only [Option.map_some, Option.getD_some, Option.some.injEq]
      have hds : daysSince r.1[i] q = r.1[i].length := by
        unfold daysSince
        rw [b3, H.t_day hq hp, b5]
        exact Int.mul_ediv_cancel _ dayNs_pos'.ne'
      rw [hds]; ring
    · right
      refine ⟨hnone, ?_⟩
      have hff : (ffill (se.map Prod.snd))[k]'(by simp [ffill, ffillFrom_length]; omega) = none := by
        unfold ffill
        apply ffillFrom_getElem_none (by simp; omega)
        intro q hq q2
        simp only [List.length_map] at hq
        rw [List.getElem_map]
        rcases Nat.lt_or_eq_of_le q2 with g | g
        · rw [hinv q (by omega) (hnone q (by omega) g)]
        · subst g; rw [hinv q (by omega) hv]
      rw [hff]; rfl
  · rcases exists_next_valid r.1 (r.1.length - (k + 1)) (k + 1) (by omega) with ⟨i, hi, hki, hvi, hbet⟩ | hnone
    · left
      obtain ⟨a, ha1, ha2⟩ := hval i (by omega) hvi
      refine ⟨i, hi, hki, hvi, fun q hq g1 g2 => hbet q hq g1 g2, ?_⟩
      have hbf : (bfill (se.map Prod.fst))[k]'(by simp [bfill_length]; omega) = some a := by
        apply bfill_getElem (j := i) (by omega) (by simp; omega)
        · rw [List.getElem_map, ha2]
        · intro q hq q1 q2
          simp only [List.length_map] at hq
          rw [List.getElem_map]
          rcases Nat.lt_or_eq_of_le q1 with g | g
          · rw [hinv q (by omega) (hbet q (by omega) g q2)]
          · subst g; rw [hinv k (by omega) hv]
      rw [hbf]
      obtain ⟨p, hp, q, hq, b1, b2, b3, b4, b5⟩ := bounds i (by omega)
      have := hmem i (by omega) p hp b1
      rw [hday i (by omega) p hp b1, ha1] at this
      rw [b3]
      convert this using 2
      have hds : daysSince r.1[i] p = 0 := by
        unfold daysSince; rw [b3]; simp
      rw [hds]; simp
    · right
      refine ⟨fun q hq g => hnone q hq g, ?_⟩
      have hbf : (bfill (se.map Prod.fst))[k]'(by simp [bfill_length]; omega) = none := by
        apply bfill_getElem_none (by simp; omega)
        intro q hq q1
        simp only [List.length_map] at hq
        rw [List.getElem_map]
        rcases Nat.lt_or_eq_of_le q1 with g | g
        · rw [hinv q (by omega) (hnone q (by omega) g)]
        · subst g; rw [hinv k (by omega) hv]
      rw [hbf]; rfl

/-- CPython's iteration order of a set of at most four small non-negative integers with different
residues modulo 8: the hash table has eight slots and an integer sits in the slot of its residue. -/
def Spec.cpythonSmallSet (l : List Nat) : List Nat := l.insertionSort fun a b => a % 8 ≤ b % 8

/-- **C35 (refuted).** With CPython's set order the claim is false: with nine valid intervals and invalid
ones in the groups 1 and 8 the set `{1, 8}` is visited as 8, 1 and the two levels are exchanged. -/
theorem C35_levels_refuted :
    ∃ (pm insol : Series) (dr : SrrDraw) (out : SrrOut), ValidDraw .randomClean dr ∧
      soilingSrr cpythonSmallSet (fun _ => 0) SrrEx.opts SrrEx.res .randomClean 95 (682 / 10) [dr] pm insol none
        = .ok out ∧
      ∃ p ∈ out.profiles, ¬ LevelsBetween out.table p := by
  have hcalc : ((soilingSrr cpythonSmallSet (fun _ => 0) SrrEx.opts SrrEx.res .randomClean 95 (682 / 10)
      [SrrEx.draw0] SrrEx.pmLevels SrrEx.insolLevels none).toOption.map fun o =>
        (o.table.map fun i => (i.start, i.stop, i.valid),
         o.profiles.map fun p => p.map fun x => (x.1, x.2))) = some
      ([(0, 86400000000000, true), (172800000000000, 172800000000000, false), (259200000000000, 345600000000000, true), (432000000000000, 518400000000000, true), (604800000000000, 691200000000000, true), (777600000000000, 864000000000000, true), (950400000000000, 1036800000000000, true),
        (1123200000000000, 1209600000000000, true), (1296000000000000, 1382400000000000, true), (1468800000000000, 1468800000000000, false), (1555200000000000, 1641600000000000, true)],
       [[(0, some 1), (86400000000000, some (4 / 5)), (172800000000000, some (-3 / 5)), (259200000000000, some (4 / 5)), (345600000000000, some (3 / 5)),
         (432000000000000, some (3 / 5)), (518400000000000, some (2 / 5)), (604800000000000, some (2 / 5)), (691200000000000, some (1 / 5)), (777600000000000, some (1 / 5)),
         (864000000000000, some 0), (950400000000000, some 0), (1036800000000000, some (-1 / 5)), (1123200000000000, some (-1 / 5)), (1209600000000000, some (-2 / 5)),
         (1296000000000000, some (-2 / 5)), (1382400000000000, some (-3 / 5)), (1468800000000000, some (4 / 5)), (1555200000000000, some (-3 / 5)),
         (1641600000000000, some (-4 / 5))]]) := by
    decide +kernel
  cases h : soilingSrr cpythonSmallSet (fun _ => 0) SrrEx.opts SrrEx.res .randomClean 95 (682 / 10)
      [SrrEx.draw0] SrrEx.pmLevels SrrEx.insolLevels none with
  | error e => rw [h] at hcalc; exact absurd hcalc (by simp [Except.toOption])
  | ok out =>
    rw [h] at hcalc
    simp only [Except.toOption, Option.map_some, Option.some.injEq, Prod.mk.injEq] at hcalc
    obtain ⟨ht, hp⟩ := hcalc
    refine ⟨SrrEx.pmLevels, SrrEx.insolLevels, SrrEx.draw0, out, ⟨?_, ?_, ?_⟩, h, ?_⟩
    · intro k; simp [SrrEx.draw0]
    · intro _ k; simp [SrrEx.draw0]
    · intro k; simp [SrrEx.draw0]
    · cases hpr : out.profiles with
      | nil => rw [hpr] at hp; simp at hp
      | cons p l =>
        rw [hpr] at hp
        simp only [List.map_cons, List.cons.injEq] at hp
        obtain ⟨hp, -⟩ := hp
        refine ⟨p, by simp, fun H => ?_⟩
        have hlen : out.table.length = 11 := by
          have := congrArg List.length ht
          simpa using this
        have hget : ∀ k (hk : k < out.table.length), ((out.table[k].start, out.table[k].stop,
            out.table[k].valid) : Int × Int × Bool) ∈ (([(0, 86400000000000, true), (172800000000000, 172800000000000, false), (259200000000000, 345600000000000, true), (432000000000000, 518400000000000, true),
              (604800000000000, 691200000000000, true), (777600000000000, 864000000000000, true), (950400000000000, 1036800000000000, true),
              (1123200000000000, 1209600000000000, true), (1296000000000000, 1382400000000000, true), (1468800000000000, 1468800000000000, false), (1555200000000000, 1641600000000000, true)] : List (Int × Int × Bool))[k]?) := by
          intro k hk
          rw [← ht, List.getElem?_map, List.getElem?_eq_getElem hk]
          simp
        have g0 := hget 0 (by omega)
        have g1 := hget 1 (by omega)
        have g2 := hget 2 (by omega)
        simp only [List.getElem?_cons_zero, List.getElem?_cons_succ, Option.mem_some_iff, Prod.mk.injEq] at g0 g1 g2
        have hday : ∀ x ∈ p, (x.1, x.2) ∈ p.map fun x : Int × Cell => (x.1, x.2) :=
          fun x hx => List.mem_map.mpr ⟨x, hx, rfl⟩
        rw [hp] at hday
        obtain ⟨s, e, n, hs, he, hn, hmin, -⟩ := H 1 (by omega) g1.2.2.symm
        have hE : e = 4 / 5 := by
          rcases he with ⟨j, hj, -, -, hm⟩ | ⟨hall, -⟩
          · obtain rfl : j = 0 := by omega
            have := hday _ hm
            rw [← g0.2.1] at this
            simpa using this
          · have := hall 0 (by omega) (by omega)
            rw [← g0.2.2] at this
            simp at this
        have hN : n = 4 / 5 := by
          rcases hn with ⟨j, hj, hkj, -, hb, hm⟩ | ⟨hall, -⟩
          · rcases Nat.lt_or_ge 2 j with g | g
            · have := hb 2 (by omega) (by omega) g
              rw [← g2.2.2] at this
              simp at this
            · obtain rfl : j = 2 := by omega
              have := hday _ hm
              rw [← g2.1] at this
              simpa using this
          · have := hall 2 (by omega) (by omega)
            rw [← g2.2.2] at this
            simp at this
        have hS : s = -3 / 5 := by
          obtain ⟨x, hx, ex⟩ : ∃ x ∈ p, (x.1, x.2) = ((172800000000000 : Int), (some (-3 / 5) : Cell)) := by
            have : ((172800000000000 : Int), (some (-3 / 5) : Cell)) ∈ p.map fun x : Int × Cell => (x.1, x.2) := by
              rw [hp]; simp
            obtain ⟨x, hx, ex⟩ := List.mem_map.mp this
            exact ⟨x, hx, ex⟩
          rw [Prod.mk.injEq] at ex
          have := hs x hx (by omega) (by omega)
          rw [ex.2] at this
          simpa using this.symm
        rw [hE, hN, hS] at hmin
        norm_num at hmin

/-- the hypotheses of `C33_profile_days`, `C33_profiles_le_one`, `C34_weighted_mean` and `C34_between` are
met: two soiling intervals, half-normal cleaning, three realizations; the ratio is the insolation-weighted
mean 17/20 -/
example : ((soilingSrr id (fun _ => 0) SrrEx.opts SrrEx.res .halfNorm 95 (682 / 10)
      [SrrEx.draw0, SrrEx.draw0, SrrEx.draw0] SrrEx.pm SrrEx.insol none).toOption.map fun o =>
        (o.ratio, o.low, o.high, o.profiles.map fun p => p.map Prod.snd)) =
    some (17 / 20, 17 / 20, 17 / 20, List.replicate 3 [some 1, some (9 / 10), some (4 / 5), some (7 / 10),
      some 1, some (9 / 10), some (4 / 5), some (7 / 10)]) := by decide +kernel

/-- the hypotheses of `C35_levels_partial` are met (increasing order, two invalid days); each invalid day
takes the level of its own gap -/
example : ((soilingSrr (List.insertionSort (· ≤ ·)) (fun _ => 0) SrrEx.opts SrrEx.res .randomClean 95 (682 / 10)
      [SrrEx.draw0] SrrEx.pmLevels SrrEx.insolLevels none).toOption.map fun o =>
        o.profiles.map fun p => (cellAt (p.map Prod.snd) 2, cellAt (p.map Prod.snd) 17)) =
    some [(some (4 / 5), some (-3 / 5))] := by decide +kernel

/-! ### C36 -/

/-- **C36 (method).** An unknown method is a ValueError as soon as there is a valid interval and one
repetition. -/
theorem C36_unknown_method {ord : List Nat → List Nat} {zs : List (ℚ × ℚ) → ℚ} (hz : ∀ p, 0 ≤ zs p)
    {o : DailyOpts} {ro : ResultOpts} {exceed conf : ℚ} {dr : SrrDraw} {draws : List SrrDraw}
    {pm insol : Series} {precip : Option Series} (hinit : srrInit pm insol precip = .ok ())
    {d : Cell × List SrrRow} (hd : calcDailyDf o pm insol precip = .ok d)
    (hv : ∃ k, Considered ro.trim d.2 k ∧
      ValidInterval (theil zs ((positiveDays d.2 k).map fun d => ((d.day : ℚ), d.piNorm))) ro d.2 k) :
    soilingSrr ord zs o ro .other exceed conf (dr :: draws) pm insol precip = .error .valueError := by
  obtain ⟨r, hr⟩ := (C36_no_valid_interval hz ro d.2).2 hv
  unfold soilingSrr
  rw [hinit, hd]
  simp only [Except.bind]
  rw [hr]
  simp only
  have : calcMonte ord .other r.1 r.2 (dr :: draws) = .error .valueError := by
    unfold calcMonte
    rw [List.mapM_cons]
    rfl
  rw [this]

/-- **C36 (no valid interval, whole analysis).** Without a valid interval the analysis raises
NoValidIntervalError for every method and all random numbers, and conversely. -/
theorem C36_no_valid_interval_srr {ord : List Nat → List Nat} {zs : List (ℚ × ℚ) → ℚ} (hz : ∀ p, 0 ≤ zs p)
    {o : DailyOpts} {ro : ResultOpts} {m : SrrMethod} {exceed conf : ℚ} {draws : List SrrDraw}
    {pm insol : Series} {precip : Option Series} (hinit : srrInit pm insol precip = .ok ())
    {d : Cell × List SrrRow} (hd : calcDailyDf o pm insol precip = .ok d) :
    ((¬ ∃ k, Considered ro.trim d.2 k ∧
      ValidInterval (theil zs ((positiveDays d.2 k).map fun d => ((d.day : ℚ), d.piNorm))) ro d.2 k) →
      soilingSrr ord zs o ro m exceed conf draws pm insol precip = .error .noValidIntervalError) ∧
    (soilingSrr ord zs o ro m exceed conf draws pm insol precip = .error .noValidIntervalError →
      ¬ ∃ k, Considered ro.trim d.2 k ∧
      ValidInterval (theil zs ((positiveDays d.2 k).map fun d => ((d.day : ℚ), d.piNorm))) ro d.2 k) := by
  constructor
  · intro hno
    have := (C36_no_valid_interval hz ro d.2).1 hno
    unfold soilingSrr
    rw [hinit, hd]
    simp only [Except.bind]
    rw [this]
  · intro he hv
    obtain ⟨r, hr⟩ := (C36_no_valid_interval hz ro d.2).2 hv
    unfold soilingSrr at he
    rw [hinit, hd] at he
    simp only [Except.bind] at he
    rw [hr] at he
    simp only at he
    have hperc : ∀ l p, percentileE l p ≠ .error .noValidIntervalError := by
      intro l p
      unfold percentileE
      split_ifs
      · simp
      · cases l <;> simp
    cases hm : calcMonte ord m r.1 r.2 draws with
    | error e =>
      rw [hm] at he
      simp only [Except.error.injEq] at he
      subst he
      have : ∀ draws, calcMonte ord m r.1 r.2 draws ≠ .error .noValidIntervalError := by
        intro draws
        unfold calcMonte
        induction draws with
        | nil => rw [List.mapM_nil]; simp [pure, Except.pure]
        | cons dr l ih =>
          rw [List.mapM_cons]
          have hre : realization ord m r.1 r.2 dr ≠ .error .noValidIntervalError := by
            unfold realization startLosses
            cases m <;> simp [Except.map]
          cases h1 : realization ord m r.1 r.2 dr with
          | error e => rw [h1] at hre; simpa [bind, Except.bind] using hre
          | ok x =>
            simp only [bind, Except.bind]
            cases h2 : l.mapM (realization ord m r.1 r.2) with
            | error e => rw [h2] at ih; simpa using ih
            | ok y => simp [pure, Except.pure]
      exact this draws hm
    | ok mc =>
      rw [hm] at he
      simp only at he
      unfold srrSummary at he
      split_ifs at he
      · cases he
      simp only at he
      cases h1 : percentileE (valids (mc.map Prod.snd)) 50 with
      | error e => rw [h1] at he; simp only [Except.bind, Except.error.injEq] at he; subst he; exact hperc _ _ h1
      | ok a =>
        cases h2 : percentileE (valids (mc.map Prod.snd)) (50 - conf / 2) with
        | error e =>
          rw [h1, h2] at he; simp only [Except.bind, Except.error.injEq] at he; subst he; exact hperc _ _ h2
        | ok b =>
          cases h3 : percentileE (valids (mc.map Prod.snd)) (50 + conf / 2) with
          | error e =>
            rw [h1, h2, h3] at he; simp only [Except.bind, Except.error.injEq] at he; subst he
            exact hperc _ _ h3
          | ok c =>
            cases h4 : percentileE (valids (mc.map Prod.snd)) (100 - exceed) with
            | error e =>
              rw [h1, h2, h3, h4] at he; simp only [Except.bind, Except.error.injEq] at he; subst he
              exact hperc _ _ h4
            | ok f => rw [h1, h2, h3, h4] at he; simp [Except.bind] at he

/-- rising performance: no valid interval, for every method -/
example : soilingSrr id (fun _ => 0) SrrEx.opts SrrEx.res .perfectClean 95 (682 / 10) [SrrEx.draw0]
    (SrrEx.daily [some 1, some (101/100), some (102/100)]) SrrEx.insol none
      = .error .noValidIntervalError := by decide +kernel

/-- an unknown method on the data of the example above -/
example : soilingSrr id (fun _ => 0) SrrEx.opts SrrEx.res .other 95 (682 / 10) [SrrEx.draw0]
    SrrEx.pm SrrEx.insol none = .error .valueError := by decide +kernel

end Verif
