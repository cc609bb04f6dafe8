import Verif.Lemmas.Filtering
import Verif.Spec.Normalization
import Verif.Lemmas.Interpolate

/-! # Properties C07-C09 (interpolation) -/

namespace Verif
open Spec

theorem consecutive_iff {ts : Series} (hs : StrictSorted (keys ts)) {a b : Int} {va vb : ℚ} :
    Consecutive ts a va b vb ↔ Adjacent (dropna ts) (a, va) (b, vb) := by
  have hd := dropna_sorted hs
  constructor
  · rintro ⟨ha, hb, hab, hno⟩
    obtain ⟨l1, l2, e⟩ := List.append_of_mem (mem_dropna.mpr ha)
    have hb' := mem_dropna.mpr hb
    have hd' := hd
    rw [e] at hb' hd'
    simp only [keys, StrictSorted, List.map_append, List.map_cons, List.pairwise_append,
      List.pairwise_cons, List.mem_map, List.mem_cons] at hd'
    rcases List.mem_append.mp hb' with h | h
    · have := hd'.2.2 b ⟨_, h, rfl⟩ a (Or.inl rfl); omega
    · rcases List.mem_cons.mp h with h' | h'
      · cases h'; omega
      · cases l2 with
        | nil => simp at h'
        | cons r l2 =>
          refine ⟨l1, l2, ?_⟩
          have hr : r = (b, vb) := by
            rcases List.mem_cons.mp h' with h2 | h2
            · exact h2.symm
            · exfalso
              obtain ⟨u, v⟩ := r
              have hu : ValidAt ts u v := mem_dropna.mp (by rw [e]; simp)
              have h3 := hd'.2.1.1 u ⟨(u, v), by simp, rfl⟩
              have h4 : u < b := by
                have := hd'.2.1.2
                simp only [List.map_cons, List.pairwise_cons, List.mem_map] at this
                exact this.1 b ⟨_, h2, rfl⟩
              rcases hno u v hu <;> omega
          rw [e, hr]
  · intro h
    have hlt := h.lt hd
    obtain ⟨l1, l2, e⟩ := h
    refine ⟨mem_dropna.mp (by rw [e]; simp), mem_dropna.mp (by rw [e]; simp), hlt, ?_⟩
    intro u v huv
    have h1 := mem_dropna.mpr huv
    rw [e] at h1 hd
    simp only [keys, StrictSorted, List.map_append, List.map_cons, List.pairwise_append,
      List.pairwise_cons, List.mem_map, List.mem_cons] at hd
    rcases List.mem_append.mp h1 with h2 | h2
    · left; exact (hd.2.2 u ⟨_, h2, rfl⟩ a (Or.inl rfl)).le
    · rcases List.mem_cons.mp h2 with h3 | h3
      · left; cases h3; exact le_refl _
      · rcases List.mem_cons.mp h3 with h4 | h4
        · right; cases h4; exact le_refl _
        · right; exact (hd.2.1.2.1 u ⟨_, h4, rfl⟩).le

theorem lerp_onChord {a b : Int} (hab : a < b) (va vb : ℚ) (t : Int) :
    OnChord a va b vb t (lerpAt a va b vb t) := by
  have : (b : ℚ) - a ≠ 0 := by
    have : (a : ℚ) < b := by exact_mod_cast hab
    linarith
  unfold OnChord lerpAt
  field_simp
  ring

theorem onChord_between {a b t : Int} {va vb y : ℚ} (h1 : a < t) (h2 : t < b)
    (h : OnChord a va b vb t y) : min va vb ≤ y ∧ y ≤ max va vb := by
  unfold OnChord at h
  have h1' : (0 : ℚ) < (t : ℚ) - a := by
    have : (a : ℚ) < t := by exact_mod_cast h1
    linarith
  have h2' : (0 : ℚ) < (b : ℚ) - t := by
    have : (t : ℚ) < b := by exact_mod_cast h2
    linarith
  have hsum : (y - va) * ((b : ℚ) - t) = (vb - y) * ((t : ℚ) - a) := by linarith
  rcases le_total va vb with hv | hv
  · rw [min_eq_left hv, max_eq_right hv]
    constructor
    · by_contra hc
      push Not at hc
      have : (y - va) * ((b : ℚ) - t) < 0 := mul_neg_of_neg_of_pos (by linarith) h2'
      have : 0 < (vb - y) * ((t : ℚ) - a) := mul_pos (by linarith) h1'
      linarith
    · by_contra hc
      push Not at hc
      have : 0 < (y - va) * ((b : ℚ) - t) := mul_pos (by linarith) h2'
      have : (vb - y) * ((t : ℚ) - a) < 0 := mul_neg_of_neg_of_pos (by linarith) h1'
      linarith
  · rw [min_eq_right hv, max_eq_left hv]
    constructor
    · by_contra hc
      push Not at hc
      have : (y - va) * ((b : ℚ) - t) < 0 := mul_neg_of_neg_of_pos (by linarith) h2'
      have : 0 < (vb - y) * ((t : ℚ) - a) := mul_pos (by linarith) h1'
      linarith
    · by_contra hc
      push Not at hc
      have : 0 < (y - va) * ((b : ℚ) - t) := mul_pos (by linarith) h2'
      have : (vb - y) * ((t : ℚ) - a) < 0 := mul_neg_of_neg_of_pos (by linarith) h1'
      linarith

/-- value of the result of `interpolate` at one target timestamp -/
theorem mem_interpolate {ts : Series} (hs : Increasing ts) {target : List Int} {maxTd : Option ℚ}
    {out : List (Int × Cell)} (h : interpolateSeries ts target maxTd = .ok out) :
    (out.map Prod.fst = target) ∧ ∀ t c, (t, c) ∈ out →
      c = valueAt (dropna ts) (gapLimit (keys (dropna ts)) maxTd) t := by
  rw [interpolateSeries_eq hs] at h
  cases h
  refine ⟨by simp [Function.comp_def], ?_⟩
  intro t c hm
  obtain ⟨u, _, hu⟩ := List.mem_map.mp hm
  cases hu; rfl

theorem interpolate_ok {ts : Series} {tzS tzT : Bool} {target : List Int} {maxTd : Option ℚ}
    {out : List (Int × Cell)} (h : interpolate ts tzS tzT target maxTd = .ok out) :
    interpolateSeries ts target maxTd = .ok out := by
  unfold interpolate at h
  split at h
  · cases h
  · exact h

/-- **C07.** For every series with increasing timestamps, every target index and every
non-negative `max_timedelta`, `interpolate` succeeds, keeps the target index, and at every target
timestamp where the source has a valid sample it returns exactly that sample. -/
theorem C07_reproduces_samples {ts : Series} (hs : Increasing ts) (target : List Int) {m : ℚ}
    (hm : 0 ≤ m) (tz : Bool) :
    ∃ out, interpolate ts tz tz target (some m) = .ok out ∧ out.map Prod.fst = target ∧
      ∀ t v c, ValidAt ts t v → (t, c) ∈ out → c = some v := by
  refine ⟨_, by unfold interpolate; rw [if_neg (by simp), interpolateSeries_eq hs], ?_⟩
  obtain ⟨hk, hv⟩ := mem_interpolate hs (interpolateSeries_eq hs target (some m))
  refine ⟨hk, fun t v c hval hc => ?_⟩
  rw [hv t c hc, valueAt, (lookup_toSeries_some (dropna_sorted hs)).mpr (mem_dropna.mpr hval)]
  simp [gapLimit, within, cellCmp, hm]

/-- `median` of the valid gaps of the model is the median of `Spec.validGaps`. -/
theorem valids_gaps (ts : Series) :
    valids ((gaps (keys (dropna ts))).map Prod.snd) = validGaps ts := by
  have h1 : keys (dropna ts) = ts.filterMap fun r => r.2.map fun _ => r.1 := by
    unfold keys dropna
    rw [List.map_filterMap]
    apply List.filterMap_congr
    intro r _
    cases r.2 <;> rfl
  unfold validGaps
  rw [← h1]
  generalize keys (dropna ts) = l
  cases l with
  | nil => rfl
  | cons p l =>
    have : ∀ p, valids ((gapsFrom p l).map Prod.snd) =
        List.zipWith (fun a b : Int => (b : ℚ) - a) (p :: l) l := by
      induction l with
      | nil => intro p; rfl
      | cons t l ih =>
        intro p
        have := ih t
        simp only [valids, gapsFrom, List.map_cons] at this ⊢
        simp only [List.zipWith_cons_cons]
        rw [← this]
        rfl
    simpa [gaps, valids] using this p

/-- **C07/C08, default limit.** Without `max_timedelta` the limit is twice the median gap between
valid samples (of a series with at least two valid samples). -/
theorem C08_default_limit {ts : Series} (hs : Increasing ts) (target : List Int) {g : ℚ}
    (hg : IsMedian (validGaps ts) g) :
    interpolate ts true true target none = interpolate ts true true target (some (2 * g)) := by
  rw [isMedian_iff] at hg
  unfold interpolate
  rw [if_neg (by simp), if_neg (by simp), interpolateSeries_eq hs, interpolateSeries_eq hs]
  have : gapLimit (keys (dropna ts)) none = gapLimit (keys (dropna ts)) (some (2 * g)) := by
    unfold gapLimit
    rw [valids_gaps, hg]; rfl
  rw [this]

/-- **C08 (soundness).** Every non-missing value returned by `interpolate` is either the source
sample at this timestamp, or lies on the chord of – hence between – the two valid source samples
next to its timestamp, and these are at most `max_timedelta` apart. -/
theorem C08_envelope {ts : Series} (hs : Increasing ts) {target : List Int} {m : ℚ}
    {tzS tzT : Bool} {out : List (Int × Cell)}
    (h : interpolate ts tzS tzT target (some m) = .ok out) {t : Int} {y : ℚ}
    (hy : (t, some y) ∈ out) :
    ValidAt ts t y ∨ ∃ a va b vb, Consecutive ts a va b vb ∧ a < t ∧ t < b ∧
      (b : ℚ) - a ≤ m ∧ OnChord a va b vb t y ∧ min va vb ≤ y ∧ y ≤ max va vb := by
  have hd := dropna_sorted hs
  obtain ⟨_, hv⟩ := mem_interpolate hs (interpolate_ok h)
  have hval := hv t _ hy
  unfold valueAt at hval
  cases hl : lookupK (toSeries (dropna ts)) t with
  | some v =>
    rw [hl] at hval
    simp only at hval
    split at hval
    · cases hval; left; exact mem_dropna.mp ((lookup_toSeries_some hd).mp hl)
    · cases hval
  | none =>
    right
    rw [hl] at hval
    simp only at hval
    have htd := lookup_toSeries_none.mp hl
    cases hp : prevRow (dropna ts) t with
    | none => rw [hp] at hval; cases hval
    | some x =>
      cases hn : nextRow (dropna ts) t with
      | none => rw [hp, hn] at hval; cases hval
      | some z =>
        obtain ⟨a, va⟩ := x
        obtain ⟨b, vb⟩ := z
        rw [hp, hn] at hval
        simp only at hval
        split at hval
        · next hw =>
          cases hval
          obtain ⟨hadj, h1, h2⟩ := adjacent_of_prev_next hd htd hp hn
          obtain ⟨m', hm', hle⟩ := within_iff.mp hw
          cases hm'
          have hc := lerp_onChord (hadj.lt hd) va vb t
          have hb := onChord_between h1 h2 hc
          exact ⟨a, va, b, vb, (consecutive_iff hs).mpr hadj, h1, h2, hle, hc, hb.1, hb.2⟩
        · cases hval

/-- **C08 (completeness).** Between two consecutive valid samples the result is their chord when
they are at most `max_timedelta` apart and NaN when they are further apart. -/
theorem C08_between {ts : Series} (hs : Increasing ts) {target : List Int} {m : ℚ}
    {tzS tzT : Bool} {out : List (Int × Cell)}
    (h : interpolate ts tzS tzT target (some m) = .ok out) {t : Int} {c : Cell}
    (hc : (t, c) ∈ out) {a b : Int} {va vb : ℚ} (hab : Consecutive ts a va b vb)
    (h1 : a < t) (h2 : t < b) :
    ((b : ℚ) - a ≤ m → ∃ y, c = some y ∧ OnChord a va b vb t y) ∧ (m < (b : ℚ) - a → c = none) := by
  have hd := dropna_sorted hs
  obtain ⟨_, hv⟩ := mem_interpolate hs (interpolate_ok h)
  have hval := hv t c hc
  have hadj := (consecutive_iff hs).mp hab
  obtain ⟨hp, hn, htd⟩ := prev_next_of_adjacent hd hadj h1 h2
  unfold valueAt at hval
  rw [lookup_toSeries_none.mpr htd, hp, hn] at hval
  have hg : gapLimit (keys (dropna ts)) (some m) = some m := rfl
  rw [hg] at hval
  dsimp only at hval
  constructor
  · intro hle
    rw [if_pos (within_iff.mpr ⟨m, rfl, hle⟩)] at hval
    exact ⟨_, hval, lerp_onChord (hadj.lt hd) va vb t⟩
  · intro hlt
    rw [if_neg] at hval
    · exact hval
    · intro hw
      obtain ⟨m', hm', hle⟩ := within_iff.mp hw
      cases hm'
      linarith

/-- **C08 (no extrapolation).** Before the first and after the last valid sample the result is
NaN, for every gap limit including the default one. -/
theorem C08_no_extrapolation {ts : Series} (hs : Increasing ts) {target : List Int}
    {maxTd : Option ℚ} {tzS tzT : Bool} {out : List (Int × Cell)}
    (h : interpolate ts tzS tzT target maxTd = .ok out) {t : Int} {c : Cell} (hc : (t, c) ∈ out)
    (hout : (∀ u v, ValidAt ts u v → t < u) ∨ (∀ u v, ValidAt ts u v → u < t)) : c = none := by
  have hd := dropna_sorted hs
  obtain ⟨_, hv⟩ := mem_interpolate hs (interpolate_ok h)
  rw [hv t c hc]
  have htd : t ∉ keys (dropna ts) := by
    intro ht
    obtain ⟨⟨u, v⟩, hr, rfl⟩ := List.mem_map.mp ht
    have hu : ValidAt ts u v := mem_dropna.mp hr
    rcases hout with h | h
    · exact absurd (h u v hu) (lt_irrefl _)
    · exact absurd (h u v hu) (lt_irrefl _)
  unfold valueAt
  rw [lookup_toSeries_none.mpr htd]
  simp only
  rcases hout with h | h
  · have : prevRow (dropna ts) t = none := by
      unfold prevRow
      rw [List.getLast?_eq_none_iff, List.filter_eq_nil_iff]
      rintro ⟨u, v⟩ hr
      have := h u v (mem_dropna.mp hr)
      simp; omega
    rw [this]
  · have : nextRow (dropna ts) t = none := by
      unfold nextRow
      rw [List.head?_eq_none_iff, List.filter_eq_nil_iff]
      rintro ⟨u, v⟩ hr
      have := h u v (mem_dropna.mp hr)
      simp; omega
    rw [this]
    cases prevRow (dropna ts) t <;> rfl

/-- **C09.** A frame is interpolated column by column: if every column alone can be interpolated
the frame result has the same columns in the same order and each is what `interpolate` gives for
that column; a mix of tz-aware and tz-naive indexes is refused before any column is looked at. -/
theorem C09_columns {index : List Int} {cols : List (String × List Cell)} {tzS tzT : Bool}
    {target : List Int} {maxTd : Option ℚ} {out : List (String × List (Int × Cell))}
    (h : interpolateFrame index cols tzS tzT target maxTd = .ok out) :
    List.Forall₂ (fun c o => c.1 = o.1 ∧
      interpolate (index.zip c.2) tzS tzT target maxTd = .ok o.2) cols out := by
  unfold interpolateFrame at h
  split at h
  · cases h
  · next htz =>
    induction cols generalizing out with
    | nil =>
      simp only [List.mapM_nil] at h
      cases h; exact List.Forall₂.nil
    | cons c cols ih =>
      rw [List.mapM_cons] at h
      cases h1 : interpolateSeries (index.zip c.2) target maxTd with
      | error e => rw [h1] at h; cases h
      | ok s =>
        rw [h1] at h
        cases h2 : (cols.mapM fun c => (interpolateSeries (index.zip c.2) target maxTd).map
            fun s => (c.1, s)) with
        | error e => rw [h2] at h; cases h
        | ok rest =>
          rw [h2] at h
          cases h
          refine List.Forall₂.cons ⟨rfl, ?_⟩ (ih h2)
          unfold interpolate
          rw [if_neg htz, h1]

theorem C09_tz_mismatch (index : List Int) (cols : List (String × List Cell)) (ts : Series)
    (tz : Bool) (target : List Int) (maxTd : Option ℚ) :
    interpolateFrame index cols tz (!tz) target maxTd = .error .valueError ∧
      interpolate ts tz (!tz) target maxTd = .error .valueError := by
  cases tz <;> exact ⟨rfl, rfl⟩

/-- the frame never fails when the index is increasing and the time zones agree -/
theorem C09_total {index : List Int} (hi : index.Pairwise (· < ·))
    (cols : List (String × List Cell)) (tz : Bool) (target : List Int) (maxTd : Option ℚ) :
    ∃ out, interpolateFrame index cols tz tz target maxTd = .ok out := by
  unfold interpolateFrame
  rw [if_neg (by simp)]
  induction cols with
  | nil => exact ⟨[], rfl⟩
  | cons c cols ih =>
    obtain ⟨out, ho⟩ := ih
    rw [List.mapM_cons, ho]
    have hs : StrictSorted (keys (index.zip c.2)) := by
      have : (keys (index.zip c.2)).Sublist index := by
        unfold keys
        generalize c.2 = l
        clear ho hi
        induction index generalizing l with
        | nil => simp
        | cons x index ih =>
          cases l with
          | nil => simp
          | cons y l => simpa using (ih l).cons_cons x
      exact List.Pairwise.sublist this hi
    rw [interpolateSeries_eq hs]
    exact ⟨_, rfl⟩

/-! ## concrete cases -/

/-- samples at 0, 10, (20 missing), 30, 90 -/
def exSeries : Series := [(0, some 1), (10, some 3), (20, none), (30, some 5), (90, some 0)]

example : Increasing exSeries := by decide
example : Consecutive exSeries 10 3 30 5 := by
  refine ⟨by simp [ValidAt, exSeries], by simp [ValidAt, exSeries], by decide, ?_⟩
  intro u v h
  simp only [ValidAt, exSeries, List.mem_cons, Prod.mk.injEq] at h
  rcases h with ⟨rfl, _⟩ | ⟨rfl, _⟩ | ⟨_, h⟩ | ⟨rfl, _⟩ | ⟨rfl, _⟩ | h <;> simp_all
example : interpolate exSeries true true [-5, 10, 20, 25, 60, 90, 95] (some 30) =
    .ok [(-5, none), (10, some 3), (20, some 4), (25, some (9 / 2)), (60, none), (90, some 0),
      (95, none)] := by decide +kernel
example : median (validGaps exSeries) = some 20 := by decide +kernel
example : ∃ out, interpolateFrame [0, 10] [("a", [some 1, some 2]), ("b", [none, some 2])] false
    false [5] (some 10) = .ok out ∧ out = [("a", [(5, some (3 / 2))]), ("b", [(5, none)])] :=
  ⟨_, by decide +kernel, rfl⟩

end Verif
