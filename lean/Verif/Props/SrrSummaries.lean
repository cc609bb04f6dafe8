import Verif.Lemmas.Quantile
import Verif.Lemmas.SrrMonte
import Verif.Lemmas.SrrExample
import Verif.Lemmas.Percentile

/-! # Property C37 (annual soiling ratios) -/

namespace Verif
open Spec

theorem exceptMapM_ok {α β : Type} {f : α → Except PyErr β} {l : List α} {r : List β}
    (h : l.mapM f = .ok r) : List.Forall₂ (fun a b => f a = .ok b) l r := by
  induction l generalizing r with
  | nil => simp only [List.mapM_nil] at h; cases h; exact List.Forall₂.nil
  | cons a l ih =>
    rw [List.mapM_cons] at h
    cases hr : f a with
    | error e => rw [hr] at h; exact absurd h (by simp [bind, Except.bind])
    | ok out =>
      rw [hr] at h
      simp only [bind, Except.bind] at h
      cases hl : l.mapM f with
      | error e => rw [hl] at h; exact absurd h (by simp)
      | ok outs =>
        rw [hl] at h
        simp only [pure, Except.pure, Except.ok.injEq] at h
        subst h
        exact List.Forall₂.cons hr (ih hl)

theorem forall₂_mem_right {α β : Type} {R : α → β → Prop} {l : List α} {r : List β} (h : List.Forall₂ R l r)
    {b : β} (hb : b ∈ r) : ∃ a ∈ l, R a b := by
  induction h with
  | nil => simp at hb
  | cons hr _ ih =>
    rcases List.mem_cons.mp hb with rfl | hb
    · exact ⟨_, by simp, hr⟩
    · obtain ⟨a, ha, e⟩ := ih hb
      exact ⟨a, by simp [ha], e⟩

theorem quantileE_ok {l : List ℚ} {q : ℚ} {v : Option ℚ} (h : quantileE l q = .ok v) :
    0 ≤ q ∧ q ≤ 1 ∧ quantile l q = v := by
  unfold quantileE at h
  split_ifs at h with hq
  push Not at hq
  exact ⟨hq.1, hq.2, Except.ok.inj h⟩

theorem mem_commonDays {profiles : List (List (Int × Cell))} (hne : profiles ≠ []) {t : Int} :
    t ∈ commonDays profiles ↔ ∀ p ∈ profiles, lookupK p t ≠ none := by
  unfold commonDays
  simp only [List.mem_filter, List.mem_dedup, List.mem_flatMap, List.all_eq_true]
  constructor
  · rintro ⟨-, h⟩ p hp e
    have := h p hp
    rw [e] at this
    simp at this
  · intro h
    refine ⟨?_, fun p hp => ?_⟩
    · obtain ⟨p, hp⟩ := List.exists_mem_of_ne_nil _ hne
      refine ⟨p, hp, ?_⟩
      by_contra hc
      exact h p hp (lookupK_of_not_mem hc)
    · cases hl : lookupK p t with
      | none => exact absurd hl (h p hp)
      | some x => rfl

theorem commonDays_nodup (profiles : List (List (Int × Cell))) : (commonDays profiles).Nodup :=
  (List.nodup_dedup _).filter _

/-- one row of a successful annual table -/
theorem annual_row {profiles : List (List (Int × Cell))} {insol : Series} {conf : ℚ} {rows : List AnnualRow}
    (h : annualSoilingRatios profiles insol conf = .ok rows) {r : AnnualRow} (hr : r ∈ rows) :
    profiles ≠ [] ∧ (∃ t ∈ commonDays profiles, yearOf t = r.year) ∧
    quantileE (valids (profiles.map (annualRatio insol (commonDays profiles) r.year))) (1 / 2) = .ok r.median ∧
    quantileE (valids (profiles.map (annualRatio insol (commonDays profiles) r.year))) (1 / 2 - conf / 2 / 100)
      = .ok r.low ∧
    quantileE (valids (profiles.map (annualRatio insol (commonDays profiles) r.year))) (1 / 2 + conf / 2 / 100)
      = .ok r.high := by
  unfold annualSoilingRatios at h
  split_ifs at h with hne
  simp only at h
  obtain ⟨y, hy, e⟩ := forall₂_mem_right (exceptMapM_ok h) hr
  have hy' : ∃ t ∈ commonDays profiles, yearOf t = y := by
    simpa [List.mem_insertionSort] using hy
  cases h1 : quantileE (valids (profiles.map (annualRatio insol (commonDays profiles) y))) (1 / 2) with
  | error x => rw [h1] at e; simp [Except.bind] at e
  | ok a =>
    cases h2 : quantileE (valids (profiles.map (annualRatio insol (commonDays profiles) y))) (1 / 2 - conf / 2 / 100) with
    | error x => rw [h1, h2] at e; simp [Except.bind] at e
    | ok b =>
      cases h3 : quantileE (valids (profiles.map (annualRatio insol (commonDays profiles) y))) (1 / 2 + conf / 2 / 100) with
      | error x => rw [h1, h2, h3] at e; simp [Except.bind] at e
      | ok c =>
        rw [h1, h2, h3] at e
        simp only [Except.bind, Except.ok.injEq] at e
        subst e
        exact ⟨hne, hy', h1, h2, h3⟩

/-- **C37 (years).** The table has exactly one row for each calendar year with a day on which every profile
has a value, in increasing order. -/
theorem C37_years {profiles : List (List (Int × Cell))} {insol : Series} {conf : ℚ} {rows : List AnnualRow}
    (h : annualSoilingRatios profiles insol conf = .ok rows) :
    (rows.map AnnualRow.year).Pairwise (· < ·) ∧
    ∀ y, y ∈ rows.map AnnualRow.year ↔ ∃ t, (∀ p ∈ profiles, lookupK p t ≠ none) ∧ yearOf t = y := by
  have hrows : rows.map AnnualRow.year =
      ((commonDays profiles).map yearOf).dedup.insertionSort (· ≤ ·) ∧ profiles ≠ [] := by
    unfold annualSoilingRatios at h
    split_ifs at h with hne
    refine ⟨?_, hne⟩
    have hf := exceptMapM_ok h
    clear h
    generalize ((commonDays profiles).map yearOf).dedup.insertionSort (· ≤ ·) = ys at hf
    induction hf with
    | nil => rfl
    | @cons y r ys rs e _ ih =>
      rw [List.map_cons, ih]
      congr 1
      simp only at e
      cases h1 : quantileE (valids (profiles.map (annualRatio insol (commonDays profiles) y))) (1 / 2) with
      | error x => rw [h1] at e; simp [Except.bind] at e
      | ok a =>
        cases h2 : quantileE (valids (profiles.map (annualRatio insol (commonDays profiles) y)))
            (1 / 2 - conf / 2 / 100) with
        | error x => rw [h1, h2] at e; simp [Except.bind] at e
        | ok b =>
          cases h3 : quantileE (valids (profiles.map (annualRatio insol (commonDays profiles) y)))
              (1 / 2 + conf / 2 / 100) with
          | error x => rw [h1, h2, h3] at e; simp [Except.bind] at e
          | ok c =>
            rw [h1, h2, h3] at e
            simp only [Except.bind, Except.ok.injEq] at e
            subst e
            rfl
  rw [hrows.1]
  constructor
  · have h1 := List.pairwise_insertionSort (· ≤ ·) ((commonDays profiles).map yearOf).dedup
    have h2 : (((commonDays profiles).map yearOf).dedup.insertionSort (· ≤ ·)).Nodup :=
      (List.perm_insertionSort _ _).nodup_iff.mpr (List.nodup_dedup _)
    exact (h1.and h2).imp fun h => lt_of_le_of_ne h.1 h.2
  · intro y
    simp only [List.mem_insertionSort, List.mem_dedup, List.mem_map]
    constructor
    · rintro ⟨t, ht, rfl⟩
      exact ⟨t, (mem_commonDays hrows.2).mp ht, rfl⟩
    · rintro ⟨t, ht, rfl⟩
      exact ⟨t, (mem_commonDays hrows.2).mpr ht, rfl⟩

/-- the annual ratio of one profile as a quotient of sums over the days of the year with insolation -/
theorem annualRatio_some {insol : Series} {days : List Int} {y : Int} {p : List (Int × Cell)} {v : ℚ}
    (h : annualRatio insol days y p = some v) (hp : ∀ t ∈ days, lookupK p t ≠ none) :
    ((days.filter fun t => decide (yearOf t = y)).map fun t => (lookupK insol t).getD 0).sum ≠ 0 ∧
    v * ((days.filter fun t => decide (yearOf t = y)).map fun t => (lookupK insol t).getD 0).sum =
      ((days.filter fun t => decide (yearOf t = y)).map fun t =>
        (lookupK p t).getD 0 * (lookupK insol t).getD 0).sum := by
  unfold annualRatio at h
  simp only at h
  have hd : ∀ t ∈ days.filter fun t => decide (yearOf t = y), lookupK p t ≠ none :=
    fun t ht => hp t (List.mem_filter.mp ht).1
  generalize (days.filter fun t => decide (yearOf t = y)) = d at h hd ⊢
  have e1 : ∀ (d : List Int), (∀ t ∈ d, lookupK p t ≠ none) →
      ((((d.filter fun t => (lookupK insol t).isSome).map fun t => (lookupK p t, (lookupK insol t).getD 0)).filterMap
        fun x => x.1.map fun v => (v, x.2)).map Prod.snd).sum = (d.map fun t => (lookupK insol t).getD 0).sum ∧
      ((((d.filter fun t => (lookupK insol t).isSome).map fun t => (lookupK p t, (lookupK insol t).getD 0)).filterMap
        fun x => x.1.map fun v => (v, x.2)).map fun x => x.1 * x.2).sum =
          (d.map fun t => (lookupK p t).getD 0 * (lookupK insol t).getD 0).sum := by
    intro d hd
    induction d with
    | nil => exact ⟨rfl, rfl⟩
    | cons t d ih =>
      obtain ⟨i1, i2⟩ := ih fun t ht => hd t (by simp [ht])
      have hpt := hd t (by simp)
      cases hl : lookupK insol t with
      | none =>
        rw [List.filter_cons, if_neg (by simp [hl])]
        simp only [List.map_cons, List.sum_cons, hl, Option.getD_none, zero_add, mul_zero]
        exact ⟨i1, i2⟩
      | some x =>
        rw [List.filter_cons, if_pos (by simp [hl])]
        cases hlp : lookupK p t with
        | none => exact absurd hlp hpt
        | some z =>
          simp only [List.map_cons, hlp, List.filterMap_cons, Option.map_some, List.sum_cons, hl,
            Option.getD_some, i1, i2, and_self]
  obtain ⟨a1, a2⟩ := e1 d hd
  unfold weightedRatio at h
  simp only [a1, a2] at h
  split_ifs at h with h0
  simp only [Option.some.injEq] at h
  exact ⟨h0, by rw [← h, div_mul_cancel₀ _ h0]⟩

/-- **C37 (weighted, bracketed).** In the row of a year the median is that of one ratio per profile, each
the mean of the profile over the days of that year weighted by insolation (days without insolation do
not count); low and high are quantiles of the same ratios and bracket the median. Profiles without a
ratio (zero insolation in the year) are skipped. -/
theorem C37_weighted_median {profiles : List (List (Int × Cell))} {insol : Series} {conf : ℚ}
    {rows : List AnnualRow} (h : annualSoilingRatios profiles insol conf = .ok rows) {r : AnnualRow}
    (hr : r ∈ rows) {m : ℚ} (hm : r.median = some m) :
    ∃ days : List Int, days.Nodup ∧
      (∀ t, t ∈ days ↔ (∀ p ∈ profiles, lookupK p t ≠ none) ∧ yearOf t = r.year) ∧
      ∃ ratios : List ℚ, IsMedian ratios m ∧
        (∀ v ∈ ratios, ∃ p ∈ profiles, (days.map fun t => (lookupK insol t).getD 0).sum ≠ 0 ∧
          v * (days.map fun t => (lookupK insol t).getD 0).sum =
            (days.map fun t => (lookupK p t).getD 0 * (lookupK insol t).getD 0).sum) ∧
        ratios.length = profiles.length ∧
        ∃ lo hi, r.low = some lo ∧ r.high = some hi ∧ IsQuantile ratios (1 / 2 - conf / 2 / 100) lo ∧
          IsQuantile ratios (1 / 2 + conf / 2 / 100) hi ∧ (0 ≤ conf → lo ≤ m ∧ m ≤ hi) := by
  obtain ⟨hne, -, h1, h2, h3⟩ := annual_row h hr
  obtain ⟨p1, q1, e1⟩ := quantileE_ok h1
  obtain ⟨p2, q2, e2⟩ := quantileE_ok h2
  obtain ⟨p3, q3, e3⟩ := quantileE_ok h3
  set days := (commonDays profiles).filter fun t => decide (yearOf t = r.year) with hdays
  have hmem : ∀ t, t ∈ days ↔ (∀ p ∈ profiles, lookupK p t ≠ none) ∧ yearOf t = r.year := by
    intro t
    rw [hdays, List.mem_filter, mem_commonDays hne]
    simp
  set ratios := valids (profiles.map (annualRatio insol (commonDays profiles) r.year)) with hratios
  rw [hm] at e1
  have hval : ∀ v ∈ ratios, ∃ p ∈ profiles, (days.map fun t => (lookupK insol t).getD 0).sum ≠ 0 ∧
          v * (days.map fun t => (lookupK insol t).getD 0).sum =
            (days.map fun t => (lookupK p t).getD 0 * (lookupK insol t).getD 0).sum := by
    intro v hv
    rw [hratios] at hv
    unfold valids at hv
    simp only [List.mem_filterMap, List.mem_map, id] at hv
    obtain ⟨c, ⟨p, hp, rfl⟩, hv⟩ := hv
    exact ⟨p, hp, annualRatio_some hv fun t ht => (mem_commonDays hne).mp ht p hp⟩
  have hrne : ratios ≠ [] := by
    intro e
    rw [e] at e1
    simp [quantile] at e1
  have htot : (days.map fun t => (lookupK insol t).getD 0).sum ≠ 0 := by
    obtain ⟨v, hv⟩ := List.exists_mem_of_ne_nil _ hrne
    obtain ⟨p, -, h0, -⟩ := hval v hv
    exact h0
  obtain ⟨lo, hlo⟩ := Option.isSome_iff_exists.mp
    (quantile_isSome.mpr hrne : (quantile ratios (1 / 2 - conf / 2 / 100)).isSome)
  obtain ⟨hi, hhi⟩ := Option.isSome_iff_exists.mp
    (quantile_isSome.mpr hrne : (quantile ratios (1 / 2 + conf / 2 / 100)).isSome)
  refine ⟨days, (commonDays_nodup profiles).filter _, hmem, ratios, isMedian_iff.mpr e1, hval, ?_, lo, hi,
    by rw [← e2, hlo], by rw [← e3, hhi], (isQuantile_iff p2 q2).mpr hlo, (isQuantile_iff p3 q3).mpr hhi, fun hc => ⟨?_, ?_⟩⟩
  · -- every profile has a ratio
    have : ∀ ps : List (List (Int × Cell)), (∀ p ∈ ps, ∀ t ∈ commonDays profiles, lookupK p t ≠ none) →
        (valids (ps.map (annualRatio insol (commonDays profiles) r.year))).length = ps.length := by
      intro ps hps
      induction ps with
      | nil => rfl
      | cons p ps ih =>
        have hs : ∃ v, annualRatio insol (commonDays profiles) r.year p = some v := by
          have hpt := hps p (by simp)
          unfold annualRatio
          simp only
          have e1 : ∀ (d : List Int), (∀ t ∈ d, lookupK p t ≠ none) →
            ((((d.filter fun t => (lookupK insol t).isSome).map fun t =>
              (lookupK p t, (lookupK insol t).getD 0)).filterMap
              fun x => x.1.map fun v => (v, x.2)).map Prod.snd).sum = (d.map fun t => (lookupK insol t).getD 0).sum := by
            intro d hd
            induction d with
            | nil => rfl
            | cons t d ih =>
              have i1 := ih fun t ht => hd t (by simp [ht])
              have hpt := hd t (by simp)
              cases hl : lookupK insol t with
              | none =>
                rw [List.filter_cons, if_neg (by simp [hl])]
                simp only [List.map_cons, List.sum_cons, hl, Option.getD_none, zero_add]
                exact i1
              | some x =>
                rw [List.filter_cons, if_pos (by simp [hl])]
                cases hlp : lookupK p t with
                | none => exact absurd hlp hpt
                | some z =>
                  simp only [List.map_cons, hlp, List.filterMap_cons, Option.map_some, List.sum_cons, hl,
                    Option.getD_some, i1]
          unfold weightedRatio
          simp only
          rw [e1 _ fun t ht => hpt t (List.mem_filter.mp ht).1, if_neg htot]
          exact ⟨_, rfl⟩
        obtain ⟨v, hv⟩ := hs
        have := ih fun q hq => hps q (by simp [hq])
        rw [List.map_cons, hv]
        show (valids _).length + 1 = _
        rw [this, List.length_cons]
    rw [hratios]
    exact this profiles fun p hp t ht => (mem_commonDays hne).mp ht p hp
  · exact quantile_mono hlo e1 p2 (by linarith) (by norm_num)
  · exact quantile_mono e1 hhi (by norm_num) (by linarith) q3

/-- **C37 (range).** With non-negative insolation the median, low and high of a year lie between any bounds
of the profile values on the days of that year. -/
theorem C37_range {profiles : List (List (Int × Cell))} {insol : Series} {conf : ℚ}
    {rows : List AnnualRow} (h : annualSoilingRatios profiles insol conf = .ok rows) {r : AnnualRow}
    (hr : r ∈ rows) (hins : ∀ t x, yearOf t = r.year → lookupK insol t = some x → 0 ≤ x) {a b : ℚ}
    (hab : ∀ p ∈ profiles, ∀ t x, yearOf t = r.year → lookupK p t = some x → a ≤ x ∧ x ≤ b) :
    (∀ x, r.median = some x → a ≤ x ∧ x ≤ b) ∧ (∀ x, r.low = some x → a ≤ x ∧ x ≤ b) ∧
      ∀ x, r.high = some x → a ≤ x ∧ x ≤ b := by
  obtain ⟨hne, -, h1, h2, h3⟩ := annual_row h hr
  obtain ⟨p1, q1, e1⟩ := quantileE_ok h1
  obtain ⟨p2, q2, e2⟩ := quantileE_ok h2
  obtain ⟨p3, q3, e3⟩ := quantileE_ok h3
  have key : ∀ v ∈ valids (profiles.map (annualRatio insol (commonDays profiles) r.year)), a ≤ v ∧ v ≤ b := by
    intro v hv
    unfold valids at hv
    simp only [List.mem_filterMap, List.mem_map, id] at hv
    obtain ⟨c, ⟨p, hp, rfl⟩, hv⟩ := hv
    unfold annualRatio at hv
    refine weightedRatio_bounds hv ?_ ?_
    · intro x hx
      simp only [List.mem_map, List.mem_filter, decide_eq_true_eq] at hx
      obtain ⟨t, ⟨⟨-, hy⟩, hs⟩, rfl⟩ := hx
      obtain ⟨q, hq⟩ := Option.isSome_iff_exists.mp hs
      simp only [hq, Option.getD_some]
      exact hins t q hy hq
    · intro x hx y hy
      simp only [List.mem_map, List.mem_filter, decide_eq_true_eq] at hx
      obtain ⟨t, ⟨⟨-, hyr⟩, hs⟩, rfl⟩ := hx
      exact hab p hp t y hyr hy
  refine ⟨fun x hx => ?_, fun x hx => ?_, fun x hx => ?_⟩
  · rw [hx] at e1
    exact ⟨quantile_ge e1 p1 q1 fun v hv => (key v hv).1, quantile_le e1 p1 q1 fun v hv => (key v hv).2⟩
  · rw [hx] at e2
    exact ⟨quantile_ge e2 p2 q2 fun v hv => (key v hv).1, quantile_le e2 p2 q2 fun v hv => (key v hv).2⟩
  · rw [hx] at e3
    exact ⟨quantile_ge e3 p3 q3 fun v hv => (key v hv).1, quantile_le e3 p3 q3 fun v hv => (key v hv).2⟩

theorem weightedRatio_perm {l l' : List (Cell × ℚ)} (h : l.Perm l') : weightedRatio l = weightedRatio l' := by
  have hp := h.filterMap fun x : Cell × ℚ => x.1.map fun v => (v, x.2)
  unfold weightedRatio
  simp only
  rw [(hp.map Prod.snd).sum_eq, (hp.map fun x => x.1 * x.2).sum_eq]

/-- **C37 (locality).** Data outside a year has no influence on its row: if two inputs agree on the days of
the year, the row of that year is the same. -/
theorem C37_local {ps qs : List (List (Int × Cell))} {insol insol' : Series} {conf : ℚ}
    {rows rows' : List AnnualRow} (h : annualSoilingRatios ps insol conf = .ok rows)
    (h' : annualSoilingRatios qs insol' conf = .ok rows') {r r' : AnnualRow} (hr : r ∈ rows)
    (hr' : r' ∈ rows') (hy : r.year = r'.year)
    (hins : ∀ t, yearOf t = r.year → lookupK insol t = lookupK insol' t)
    (hps : List.Forall₂ (fun p q => ∀ t, yearOf t = r.year → lookupK p t = lookupK q t) ps qs) : r = r' := by
  obtain ⟨hne, -, h1, h2, h3⟩ := annual_row h hr
  obtain ⟨hne', -, h1', h2', h3'⟩ := annual_row h' hr'
  have hiff : ∀ t, yearOf t = r.year → ((∀ p ∈ ps, lookupK p t ≠ none) ↔ ∀ q ∈ qs, lookupK q t ≠ none) := by
    intro t ht
    clear h h' h1 h2 h3 h1' h2' h3' hne hne'
    induction hps with
    | nil => simp
    | cons hpq _ ih =>
      simp only [List.mem_cons, forall_eq_or_imp, ih, hpq t ht]
  have hdays : ((commonDays ps).filter fun t => decide (yearOf t = r.year)).Perm
      ((commonDays qs).filter fun t => decide (yearOf t = r.year)) := by
    rw [List.perm_ext_iff_of_nodup ((commonDays_nodup ps).filter _) ((commonDays_nodup qs).filter _)]
    intro t
    simp only [List.mem_filter, decide_eq_true_eq, mem_commonDays hne, mem_commonDays hne']
    constructor
    · rintro ⟨g1, g2⟩; exact ⟨(hiff t g2).mp g1, g2⟩
    · rintro ⟨g1, g2⟩; exact ⟨(hiff t g2).mpr g1, g2⟩
  have hmap : ps.map (annualRatio insol (commonDays ps) r.year) =
      qs.map (annualRatio insol' (commonDays qs) r'.year) := by
    have : ∀ p q : List (Int × Cell), (∀ t, yearOf t = r.year → lookupK p t = lookupK q t) →
        annualRatio insol (commonDays ps) r.year p = annualRatio insol' (commonDays qs) r'.year q := by
      intro p q hpq
      unfold annualRatio
      simp only
      rw [← hy]
      have e : ((((commonDays qs).filter fun t => decide (yearOf t = r.year)).filter fun t =>
          (lookupK insol' t).isSome).map fun t => (lookupK q t, (lookupK insol' t).getD 0)) =
          ((((commonDays qs).filter fun t => decide (yearOf t = r.year)).filter fun t =>
          (lookupK insol t).isSome).map fun t => (lookupK p t, (lookupK insol t).getD 0)) := by
        have hf : (((commonDays qs).filter fun t => decide (yearOf t = r.year)).filter fun t =>
          (lookupK insol' t).isSome) = (((commonDays qs).filter fun t => decide (yearOf t = r.year)).filter fun t =>
          (lookupK insol t).isSome) := by
          apply List.filter_congr
          intro t ht
          rw [hins t (by simpa using (List.mem_filter.mp ht).2)]
        rw [hf]
        apply List.map_congr_left
        intro t ht
        have hyt : yearOf t = r.year := by
          have := (List.mem_filter.mp (List.mem_filter.mp ht).1).2
          simpa using this
        rw [hins t hyt, hpq t hyt]
      rw [e]
      exact weightedRatio_perm ((hdays.filter _).map _)
    clear h h' h1 h2 h3 h1' h2' h3' hiff hdays hne hne'
    generalize annualRatio insol (commonDays ps) r.year = f at this ⊢
    generalize annualRatio insol' (commonDays qs) r'.year = g at this ⊢
    induction hps with
    | nil => rfl
    | cons hpq _ ih => rw [List.map_cons, List.map_cons, ih, this _ _ hpq]
  rw [hmap] at h1 h2 h3
  have c1 := Except.ok.inj (h1.symm.trans h1')
  have c2 := Except.ok.inj (h2.symm.trans h2')
  have c3 := Except.ok.inj (h3.symm.trans h3')
  cases r; cases r'
  simp only at hy c1 c2 c3
  subst hy c1 c2 c3
  rfl

/-- **C37 (errors).** No profile at all is a ValueError; otherwise the only failure is a confidence level
outside [−100, 100] when there is a year to report. -/
theorem C37_errors {profiles : List (List (Int × Cell))} {insol : Series} {conf : ℚ} :
    (profiles = [] → annualSoilingRatios profiles insol conf = .error .valueError) ∧
    (profiles ≠ [] → -100 ≤ conf → conf ≤ 100 → ∃ rows, annualSoilingRatios profiles insol conf = .ok rows) := by
  constructor
  · intro h; unfold annualSoilingRatios; rw [if_pos h]
  · intro h h0 h1
    unfold annualSoilingRatios
    rw [if_neg h]
    simp only
    generalize ((commonDays profiles).map yearOf).dedup.insertionSort (· ≤ ·) = ys
    have hq : ∀ l q, 0 ≤ q → q ≤ 1 → quantileE l q = .ok (quantile l q) := by
      intro l q a b
      unfold quantileE
      rw [if_neg (by push Not; exact ⟨a, b⟩)]
    induction ys with
    | nil => exact ⟨[], rfl⟩
    | cons y ys ih =>
      obtain ⟨rows, hrows⟩ := ih
      rw [List.mapM_cons, hrows, hq _ _ (by norm_num) (by norm_num), hq _ _ (by linarith) (by linarith),
        hq _ _ (by linarith) (by linarith)]
      exact ⟨_, rfl⟩

/-- two profiles over the turn of the year 1970/71 -/
example : annualSoilingRatios
    [[(363 * dayNs, some 1), (364 * dayNs, some (1/2)), (365 * dayNs, some (3/4))],
     [(364 * dayNs, some 1), (365 * dayNs, some (1/4)), (366 * dayNs, some 1)]]
    [(364 * dayNs, some 2), (365 * dayNs, some 1)] 50 =
    .ok [⟨1970, some (3/4), some (5/8), some (7/8)⟩, ⟨1971, some (1/2), some (3/8), some (5/8)⟩] := by
  decide +kernel

end Verif
