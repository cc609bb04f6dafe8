import Verif.Lemmas.SrrSplit
import Verif.Lemmas.SrrExample
import Verif.Lemmas.Filtering
import Verif.Spec.Filtering

/-! # Property C95 (recentering of the daily performance) -/

namespace Verif.Spec

/-- the present values of the year beginning at `t0`: its first day and the 364 days after it -/
def yearValues (pm : Series) (t0 : Int) : List ℚ :=
  (pm.filter fun x => decide (t0 ≤ x.1 ∧ x.1 ≤ t0 + 364 * dayNs)).filterMap Prod.snd

/-- `t0` is the first day with a performance value -/
def FirstPresent (pm : Series) (t0 : Int) : Prop :=
  (∃ v, (t0, some v) ∈ pm) ∧ ∀ t v, (t, some v) ∈ pm → t0 ≤ t

end Verif.Spec

namespace Verif
open Spec

theorem isMedian_div {l : List ℚ} {m : ℚ} (h : IsMedian l m) (hm : m ≠ 0) :
    IsMedian (l.map (· / m)) 1 := by
  rw [isMedian_iff] at h ⊢
  have : (l.map (· / m)) = l.map (m⁻¹ * ·) := by
    apply List.map_congr_left; intro x _; rw [div_eq_inv_mul]
  rw [this, median_mul (inv_ne_zero hm), h]
  simp [inv_mul_cancel₀ hm]

/-- **C95 (factor).** With recentering the reported factor is the median of the present performance values
of the first year, counted from the first day with a value; without it the factor is one. -/
theorem C95_factor {o : DailyOpts} {pm insol : Series} {precip : Option Series}
    {r : Cell × List SrrRow} (hinit : srrInit pm insol precip = .ok ())
    (h : calcDailyDf o pm insol precip = .ok r) :
    ∃ t0 f, FirstPresent pm t0 ∧ r.1 = some f ∧
      (o.recenter = true → IsMedian (yearValues pm t0) f) ∧ (o.recenter = false → f = 1) := by
  obtain ⟨hne, -, ev, -, h1, -⟩ := calcDailyDf_ok h
  rw [trimMissing_join] at hne h1
  have hmne : presentPart pm ≠ [] := by intro e; rw [e] at hne; exact hne rfl
  obtain ⟨before, after, hsplit, hnone, t0, v0, hhead⟩ := presentPart_split hmne
  generalize presentPart pm = mid at *
  obtain ⟨l, rfl⟩ : ∃ l, mid = (t0, some v0) :: l := by
    cases mid with
    | nil => simp at hhead
    | cons a l => simp at hhead; exact ⟨l, by rw [hhead]⟩
  have hd := srrInit_daily hinit
  have hlt : ∀ x ∈ before, x.1 < t0 := by
    intro x hx
    rw [hsplit] at hd
    simp only [Series.index, List.map_append, List.map_cons, List.append_assoc, List.cons_append] at hd
    exact dayStepped_lt hd x.1 (List.mem_map_of_mem hx)
  have htl : dayStepped (Series.index ((t0, some v0) :: l ++ after)) = true := by
    rw [hsplit] at hd
    simp only [Series.index, List.append_assoc] at hd
    rw [List.map_append] at hd
    exact dayStepped_right hd
  have hyear : yearValues pm t0 = valids ((((t0, some v0) :: l).map Prod.snd).take 365) := by
    unfold yearValues
    rw [hsplit, List.append_assoc, List.filter_append]
    have e1 : (before.filter fun x => decide (t0 ≤ x.1 ∧ x.1 ≤ t0 + 364 * dayNs)) = [] := by
      rw [List.filter_eq_nil_iff]
      intro x hx
      have := hlt x hx
      simp; omega
    have e2 := filter_days_take ((t0, some v0) :: l ++ after) htl t0 (by simp) 364
    rw [e1, List.nil_append]
    have e3 : ((364 : Nat) : Int) = 364 := rfl
    rw [e3] at e2
    rw [e2, List.take_append, List.filterMap_append]
    have e4 : (after.take (364 + 1 - ((t0, some v0) :: l).length)).filterMap Prod.snd = [] := by
      rw [List.filterMap_eq_nil_iff]
      intro x hx
      exact hnone x (by simp [List.mem_of_mem_take hx])
    rw [e4, List.append_nil]
    unfold valids
    rw [← List.map_take, List.filterMap_map]
    rfl
  have hfirst : FirstPresent pm t0 := by
    refine ⟨⟨v0, by rw [hsplit]; simp⟩, ?_⟩
    intro t v htv
    by_contra hc
    rw [hsplit] at htv
    rcases List.mem_append.mp htv with htv | htv
    · rcases List.mem_append.mp htv with htv | htv
      · have := hnone _ (List.mem_append_left _ htv); simp at this
      · rcases List.mem_cons.mp htv with htv | htv
        · simp at htv; omega
        · have h5 := List.getElem_of_mem htv
          obtain ⟨i, hi, hti⟩ := h5
          have : t0 < t := by
            have h6 : dayStepped ((t0 :: (l.take i).map Prod.fst) ++ t :: ((l.drop (i + 1)).map Prod.fst ++
                after.map Prod.fst)) = true := by
              have e : l.map Prod.fst = (l.take i).map Prod.fst ++ t :: (l.drop (i + 1)).map Prod.fst := by
                have := List.take_append_drop i l
                rw [List.drop_eq_getElem_cons hi, hti] at this
                conv_lhs => rw [← this]
                simp
              simp only [Series.index, List.map_append, List.map_cons] at htl
              rw [e] at htl
              simpa using htl
            exact dayStepped_lt h6 t0 (by simp)
          omega
    · have := hnone _ (List.mem_append_right _ htv); simp at this
  cases hrec : o.recenter with
  | false =>
    refine ⟨t0, 1, hfirst, ?_, by simp, by simp⟩
    rw [h1, hrec]; simp [srrRenorm]
  | true =>
    have hr : r.1 = median (yearValues pm t0) := by
      rw [h1, hrec, hyear, List.map_map]
      simp only [srrRenorm, if_true]
      rfl
    have hns : (median (yearValues pm t0)).isSome := by
      rw [median_isSome, hyear]; simp [valids]
    obtain ⟨f, hf⟩ := Option.isSome_iff_exists.mp hns
    exact ⟨t0, f, hfirst, by rw [hr, hf], fun _ => isMedian_iff.mpr hf, by simp⟩

/-- **C95 (division).** The normalized performance of every analysed day is its performance divided by the
factor. -/
theorem C95_division {o : DailyOpts} {pm insol : Series} {precip : Option Series}
    {r : Cell × List SrrRow} (h : calcDailyDf o pm insol precip = .ok r) {f : ℚ} (hf : r.1 = some f)
    (hf0 : f ≠ 0) : ∀ d ∈ r.2, d.piNorm = d.pi / f := by
  obtain ⟨hne, hds, ev, hev, h1, h2⟩ := calcDailyDf_ok h
  generalize trimMissing (srrJoin pm insol precip) = df at *
  rw [hf] at h2
  intro d hd
  rw [h2] at hd
  unfold srrRows at hd
  obtain ⟨i, hi, rfl⟩ := List.mem_map.mp hd
  rw [List.mem_range] at hi
  simp only
  have e1 : df.getD i ⟨0, none, none, none⟩ = df[i] := by simp [List.getD_eq_getElem?_getD, hi]
  rw [e1]
  simp only [srrNorm, cellAt, List.map_map, List.getElem?_map, List.getElem?_eq_getElem hi, Option.map_some,
    Option.join_some, Function.comp_apply]
  rw [if_neg (by simpa using hf0)]
  cases df[i].pi <;> simp [cellOp]

/-- **C95 (first year).** After recentering, the normalized performance has median one over the present
days of the first year (the factor being nonzero). -/
theorem C95_first_year {o : DailyOpts} {pm insol : Series} {precip : Option Series}
    {r : Cell × List SrrRow} (hinit : srrInit pm insol precip = .ok ())
    (h : calcDailyDf o pm insol precip = .ok r) (hrec : o.recenter = true) (hr0 : r.1 ≠ some 0) :
    ∃ t0 f, FirstPresent pm t0 ∧ r.1 = some f ∧ IsMedian ((yearValues pm t0).map (· / f)) 1 ∧
      ∀ d ∈ r.2, d.piNorm = d.pi / f := by
  obtain ⟨t0, f, hfp, hf, hm, -⟩ := C95_factor hinit h
  have hf0 : f ≠ 0 := by rintro rfl; exact hr0 hf
  exact ⟨t0, f, hfp, hf, isMedian_div (hm hrec) hf0, C95_division h hf hf0⟩

/-- a year and a day of performance 2 after a missing day, then performance 9: the factor is 2, the days
after the first year do not count -/
def recenterEx : Series := SrrEx.daily (none :: (List.replicate 300 (some 2) ++ List.replicate 65 none ++
  List.replicate 400 (some 9)))

example : srrInit recenterEx recenterEx none = .ok () := by decide +kernel
example : (calcDailyDf { cleanThreshold := some 1, dayScale := 1 } recenterEx recenterEx none).map Prod.fst =
    .ok (some 2) := by decide +kernel

end Verif
