import Verif.Model.ClearskySeries
import Verif.Props.ClearskyTemp
import Verif.Lemmas.Calendar

/-! # Property C102 (the clear-sky temperature at a time does not depend on the period asked for) -/

namespace Verif.Clearsky

open Verif

/-! ## Specification -/

/-- the monthly values seen from a day: value of the month of day number `d` -/
def Spec.onDay (monthly : Nat → ℝ) (d : Int) : ℝ := monthly ((civil d).month.toNat - 1)

/-- weighted mean of the monthly values over the `size` days around day `d` -/
noncomputable def Spec.smoothed (monthly : Nat → ℝ) (weight : Nat → ℝ) (size : Nat) (d : Int) : ℝ :=
  ((List.range size).map fun k : Nat => weight k * Spec.onDay monthly (d - ((size / 2 : Nat) : Int) + k)).sum /
    ((List.range size).map fun k : Nat => weight k).sum

/-- the smoothed value at the time `g`, linear between midnights -/
noncomputable def Spec.atTime (monthly : Nat → ℝ) (weight : Nat → ℝ) (size : Nat) (g : Int) : ℝ :=
  Spec.smoothed monthly weight size (g / dayNs) +
    (Spec.smoothed monthly weight size (g / dayNs + 1) - Spec.smoothed monthly weight size (g / dayNs)) *
      (((g % dayNs : Int) : ℝ) / (dayNs : ℝ))

/-- `g` is the multiple of `f` nearest to `t`, the later one of two -/
def Spec.IsNearest (f t g : Int) : Prop := f ∣ g ∧ 2 * (t - g) < f ∧ 2 * (g - t) ≤ f

/-! ## Lemmas -/

theorem civil_month_range (n : Int) : 1 ≤ (civil n).month ∧ (civil n).month ≤ 12 := by
  obtain ⟨Y, mp, d, h0, h1, -, -, h2, -⟩ := civil_march n
  rw [h2]
  dsimp only
  split_ifs <;> omega

theorem nearestGrid_spec {f t : Int} (hf : 0 < f) : Spec.IsNearest f t (nearestGrid f t) := by
  unfold nearestGrid
  refine ⟨Dvd.intro_left _ rfl, ?_, ?_⟩
  · have h := Int.lt_ediv_add_one_mul_self (2 * t + f) (by omega : 0 < 2 * f)
    have : ((2 * t + f) / (2 * f) + 1) * (2 * f) = 2 * ((2 * t + f) / (2 * f) * f) + 2 * f := by ring
    omega
  · have h := Int.ediv_mul_le (2 * t + f) (by omega : 2 * f ≠ 0)
    have : (2 * t + f) / (2 * f) * (2 * f) = 2 * ((2 * t + f) / (2 * f) * f) := by ring
    omega

theorem isNearest_unique {f t g g' : Int} (h : Spec.IsNearest f t g) (h' : Spec.IsNearest f t g') : g = g' := by
  obtain ⟨⟨a, rfl⟩, h1, h2⟩ := h
  obtain ⟨⟨b, rfl⟩, h3, h4⟩ := h'
  have hf : 0 < f := by omega
  have h5 : f * (a - b) < f * 1 := by rw [mul_sub]; omega
  have h6 : f * (b - a) < f * 1 := by rw [mul_sub]; omega
  have h7 := lt_of_mul_lt_mul_left h5 hf.le
  have h8 := lt_of_mul_lt_mul_left h6 hf.le
  have : a = b := by omega
  rw [this]

theorem daily_getD {monthly : Nat → Option ℝ} {m : Nat → ℝ} (hm : ∀ k < 12, monthly k = some (m k)) (d0 : Int) {n j : Nat}
    (hj : j < n) :
    (daily monthly (monthsOf ((List.range n).map fun k : Nat => d0 + k))).getD j none =
      some (Spec.onDay m (d0 + j)) := by
  obtain ⟨h1, h2⟩ := civil_month_range (d0 + j)
  have h3 : 1 ≤ (civil (d0 + j)).month.toNat ∧ (civil (d0 + j)).month.toNat ≤ 12 := by omega
  unfold daily monthsOf Spec.onDay
  rw [List.getD_eq_getElem?_getD, List.map_map, List.map_map, List.getElem?_map, List.getElem?_range hj]
  simp only [Option.map_some, Function.comp, Option.getD_some]
  rw [if_pos h3, hm _ (by omega)]

theorem smooth_getD {monthly : Nat → Option ℝ} {m : Nat → ℝ} (hm : ∀ k < 12, monthly k = some (m k)) (weight : Nat → ℝ)
    {size : Nat} (hs : 1 ≤ size) (d0 : Int) {n i : Nat} (h1 : size / 2 ≤ i) (h2 : i - size / 2 + size ≤ n) :
    (smooth weight size (daily monthly (monthsOf ((List.range n).map fun k : Nat => d0 + k)))).getD i none =
      some (Spec.smoothed m weight size (d0 + i)) := by
  have hlen : (daily monthly (monthsOf ((List.range n).map fun k : Nat => d0 + k))).length = n := by
    simp [daily, monthsOf]
  have hin : i < n := by omega
  have hw : windowValues (daily monthly (monthsOf ((List.range n).map fun k : Nat => d0 + k))) weight
      ((i : Int) - ((size / 2 : Nat) : Int)) size =
      (List.range size).map fun k : Nat => (weight k, Spec.onDay m (d0 + i - ((size / 2 : Nat) : Int) + k)) := by
    unfold windowValues
    rw [← List.filterMap_eq_map (f := fun k : Nat => (weight k, Spec.onDay m (d0 + i - ((size / 2 : Nat) : Int) + k)))]
    apply List.filterMap_congr
    intro k hk
    have hk' := List.mem_range.mp hk
    rw [if_pos (by omega)]
    have : ((i : Int) - ((size / 2 : Nat) : Int) + k).toNat = i - size / 2 + k := by omega
    rw [this, daily_getD hm d0 (by omega)]
    simp only [Option.map_some, Function.comp]
    congr 3
    omega
  unfold smooth
  rw [List.getD_eq_getElem?_getD, List.getElem?_map, hlen, List.getElem?_range hin]
  simp only [Option.map_some, Option.getD_some]
  rw [hw]
  unfold weightedMean Spec.smoothed
  rw [if_neg (by simp; omega), List.map_map, List.map_map]
  rfl

theorem lastValid_self {x : List (Option ℝ)} {i : Nat} {u : ℝ} (h : x.getD i none = some u) :
    lastValid x i = some (i, u) := by
  cases i with
  | zero => unfold lastValid; rw [h]; rfl
  | succ i => unfold lastValid; rw [h]

theorem nextValid_succ {x : List (Option ℝ)} {i : Nat} {v : ℝ} (h : x.getD (i + 1) none = some v) :
    nextValid x i = some (i + 1, v) := by
  have hi : i + 1 < x.length := by
    by_contra hc
    rw [List.getD_eq_getElem?_getD, List.getElem?_eq_none (by omega)] at h
    cases h
  unfold nextValid
  have h1 : List.range x.length = List.range (i + 1) ++ (List.range (x.length - (i + 1))).map (fun k => i + 1 + k) := by
    rw [← List.range_add]; congr 1; omega
  rw [h1, List.filterMap_append]
  have h2 : (List.range (i + 1)).filterMap (fun j : Nat =>
      if i < j then (x.getD j none).map fun v => (j, v) else none) = [] := by
    rw [List.filterMap_eq_nil_iff]
    intro j hj
    rw [if_neg (by have := List.mem_range.mp hj; omega)]
  rw [h2, List.nil_append]
  obtain ⟨r, hr⟩ : ∃ r, x.length - (i + 1) = r + 1 := ⟨x.length - (i + 1) - 1, by omega⟩
  rw [hr, List.range_succ_eq_map, List.map_cons, List.filterMap_cons]
  simp only [add_zero]
  rw [if_pos (by omega), h]
  rfl

theorem interpolate_zero {x : List (Option ℝ)} {i : Nat} {u : ℝ} (h : x.getD i none = some u) :
    interpolate x i 0 = some u := by
  unfold interpolate
  rw [lastValid_self h]
  cases nextValid x i with
  | none => rfl
  | some p => simp

theorem interpolate_next {x : List (Option ℝ)} {i : Nat} {u v : ℝ} (h : x.getD i none = some u)
    (h' : x.getD (i + 1) none = some v) (θ : ℝ) : interpolate x i θ = some (u + (v - u) * θ) := by
  unfold interpolate
  rw [lastValid_self h, nextValid_succ h']
  simp

theorem getLast_ge {l : List Int} (hs : l.Pairwise (· ≤ ·)) {t : Int} (ht : t ∈ l) (d : Int) : t ≤ l.getLastD d := by
  have hne := List.ne_nil_of_mem ht
  rw [List.getLastD_eq_getLast?, List.getLast?_eq_some_getLast hne, Option.getD_some]
  induction l with
  | nil => cases ht
  | cons a l ih =>
    rw [List.pairwise_cons] at hs
    cases l with
    | nil =>
      rw [List.mem_singleton] at ht
      exact ht.le
    | cons b l =>
      rw [List.getLast_cons (by simp)]
      rcases List.mem_cons.mp ht with h | h
      · have h1 := hs.1 b (List.mem_cons_self ..)
        have h2 := List.mem_cons_self (a := b) (l := l)
        have h3 : ∀ x ∈ b :: l, t ≤ x := fun x hx => h ▸ hs.1 x hx
        exact h3 _ (List.getLast_mem _)
      · exact ih hs.2 h (by simp)

/-- day and offset of a time on the grid, counted from the first midnight of the daily table -/
theorem gridPos_spec {f : Int} (hf : 0 < f) (hd : f ∣ dayNs) {size : Nat} (hs : 1 ≤ size) {first last t : Int}
    (h1 : first ≤ t) (h2 : t ≤ last) :
    ∃ g, Spec.IsNearest f t g ∧ gridPos f (dailyDays size first last) t = g - (first / dayNs - size) * dayNs ∧
      first / dayNs * dayNs ≤ g ∧ g ≤ (last / dayNs + 1) * dayNs := by
  have hpos : (0 : Int) < dayNs := dayNs_pos
  have hle : first / dayNs ≤ last / dayNs := Int.ediv_le_ediv hpos (h1.trans h2)
  have hhead : (dailyDays size first last).headD 0 = first / dayNs - size := by
    unfold dailyDays
    obtain ⟨r, hr⟩ : ∃ r : Nat, (last / dayNs - first / dayNs + 2 * size + 1).toNat = r + 1 :=
      ⟨(last / dayNs - first / dayNs + 2 * size).toNat, by omega⟩
    rw [hr, List.range_succ_eq_map]
    simp
  have hlen : ((dailyDays size first last).length : Int) = last / dayNs - first / dayNs + 2 * size + 1 := by
    unfold dailyDays
    rw [List.length_map, List.length_range]
    omega
  obtain ⟨m, hm⟩ := hd
  obtain ⟨⟨a, ha⟩, h3, h4⟩ := nearestGrid_spec (t := t - (first / dayNs - size) * dayNs) hf
  generalize hg : nearestGrid f (t - (first / dayNs - size) * dayNs) = g0 at ha h3 h4
  have e1 := Int.ediv_mul_le first hpos.ne'
  have e2 := Int.lt_ediv_add_one_mul_self last hpos
  have hmul : ∀ x : Int, f * (m * x) = x * dayNs := fun x => by rw [hm]; ring
  -- a multiple of `f` below the time is not above the nearest one
  have low : ∀ b : Int, f * b ≤ t - (first / dayNs - size) * dayNs → f * b ≤ g0 := by
    intro b hb
    rw [ha]
    have : f * b < f * (a + 1) := by rw [mul_add]; omega
    have := lt_of_mul_lt_mul_left this hf.le
    exact mul_le_mul_of_nonneg_left (by omega) hf.le
  have high : ∀ b : Int, t - (first / dayNs - size) * dayNs ≤ f * b → g0 ≤ f * b := by
    intro b hb
    rw [ha]
    have : f * a < f * (b + 1) := by rw [mul_add]; omega
    have := lt_of_mul_lt_mul_left this hf.le
    exact mul_le_mul_of_nonneg_left (by omega) hf.le
  have l1 := low (m * size) (by rw [hmul, sub_mul]; linarith)
  have u1 := high (m * (last / dayNs + 1 - (first / dayNs - size))) (by rw [hmul, sub_mul]; linarith)
  rw [hmul] at l1 u1
  rw [sub_mul] at u1
  refine ⟨g0 + (first / dayNs - size) * dayNs, ⟨?_, by linarith, by linarith⟩, ?_, ?_, by linarith⟩
  · rw [ha, ← hmul]
    exact ⟨a + m * (first / dayNs - size), by ring⟩
  · unfold gridPos
    rw [hhead, hlen, hg]
    have hs' : (0 : Int) ≤ size * dayNs := by positivity
    have h7 : g0 ≤ (last / dayNs - first / dayNs + 2 * size + 1 - 1) * dayNs := by
      have h8 : (last / dayNs + 1) * dayNs - (first / dayNs - size) * dayNs ≤
          (last / dayNs - first / dayNs + 2 * size + 1 - 1) * dayNs := by
        rw [← sub_mul]
        apply mul_le_mul_of_nonneg_right _ hpos.le
        have : (1 : Int) ≤ size := by exact_mod_cast hs
        omega
      linarith
    rw [min_eq_left h7, max_eq_right (by linarith)]
    ring
  · rw [sub_mul]; linarith

/-- interpolation of the smoothed values at a grid time -/
theorem smoothed_atTime {monthly : Nat → Option ℝ} {m : Nat → ℝ} (hm : ∀ k < 12, monthly k = some (m k))
    (weight : Nat → ℝ) {size : Nat} (hs : 1 ≤ size) {first last g : Int} (hfl : first ≤ last)
    (h1 : first / dayNs * dayNs ≤ g) (h2 : g ≤ (last / dayNs + 1) * dayNs) :
    interpolate (smooth weight size (daily monthly (monthsOf (dailyDays size first last))))
      ((g - (first / dayNs - size) * dayNs) / dayNs).toNat
      ((((g - (first / dayNs - size) * dayNs) % dayNs : Int) : ℝ) / (dayNs : ℝ)) =
      some (Spec.atTime m weight size g) := by
  have hpos : (0 : Int) < dayNs := dayNs_pos
  have hle : first / dayNs ≤ last / dayNs := Int.ediv_le_ediv hpos hfl
  have hg1 : first / dayNs ≤ g / dayNs := by
    have := Int.ediv_le_ediv hpos h1
    rwa [Int.mul_ediv_cancel _ hpos.ne'] at this
  have hg2 : g / dayNs ≤ last / dayNs + 1 := by
    have := Int.ediv_le_ediv hpos h2
    rwa [Int.mul_ediv_cancel _ hpos.ne'] at this
  have hq : (g - (first / dayNs - size) * dayNs) / dayNs = g / dayNs - (first / dayNs - size) := by
    have : g - (first / dayNs - size) * dayNs = g + -(first / dayNs - size) * dayNs := by ring
    rw [this, Int.add_mul_ediv_right _ _ hpos.ne']
    ring
  have hr : (g - (first / dayNs - size) * dayNs) % dayNs = g % dayNs := by
    have : g - (first / dayNs - size) * dayNs = g + -(first / dayNs - size) * dayNs := by ring
    rw [this, Int.add_mul_emod_self_right]
  rw [hq, hr]
  have hdays : dailyDays size first last = (List.range (last / dayNs - first / dayNs + 2 * size + 1).toNat).map
      fun k : Nat => (first / dayNs - size) + (k : Int) := rfl
  rw [hdays]
  obtain ⟨i, hi⟩ : ∃ i : Nat, g / dayNs - (first / dayNs - size) = i :=
    ⟨(g / dayNs - (first / dayNs - size)).toNat, by omega⟩
  rw [hi, Int.toNat_natCast]
  have hgi : g / dayNs = (first / dayNs - size) + i := by omega
  have here := smooth_getD hm weight hs (first / dayNs - size)
    (n := (last / dayNs - first / dayNs + 2 * size + 1).toNat) (i := i) (by omega) (by omega)
  rw [← hgi] at here
  by_cases hz : g % dayNs = 0
  · rw [hz]
    simp only [Int.cast_zero, zero_div]
    rw [interpolate_zero here]
    unfold Spec.atTime
    rw [hz]; simp
  · have hlt : g / dayNs < last / dayNs + 1 := by
      by_contra hc
      have h3 : g / dayNs = last / dayNs + 1 := by omega
      have h4 := Int.mul_ediv_add_emod g dayNs
      have h5 := Int.emod_nonneg g hpos.ne'
      rw [h3] at h4
      have : dayNs * (last / dayNs + 1) = (last / dayNs + 1) * dayNs := by ring
      omega
    have next := smooth_getD hm weight hs (first / dayNs - size)
      (n := (last / dayNs - first / dayNs + 2 * size + 1).toNat) (i := i + 1) (by omega) (by omega)
    have : (first / dayNs - size) + ((i + 1 : Nat) : Int) = g / dayNs + 1 := by push_cast; omega
    rw [this] at next
    rw [interpolate_next here next]
    rfl

/-! ## Theorems -/

/-- **C102 (value).** On times in increasing order, for a frequency that divides a day and a place where the map has both values
for every month: the temperature at a time follows from the calendar around the grid time nearest to it alone. Day and night
values are means of the monthly values over the `size` days around each midnight, linear in between; nothing is missing and no
warning about missing values is given. -/
theorem C102_value {day night : TempMap} {freqAttr : Option Int} {infer : List Int → Except PyErr (Option Int)} {off : ℝ}
    {weight : Nat → ℝ} {size : Nat} (hs : 1 ≤ size) {times : List Int} (hsorted : times.Pairwise (· ≤ ·))
    {latitude longitude : ℚ} {dm nm : Nat → ℝ}
    (hd : ∀ k < 12, pixelMonths day day latitude longitude k = some (dm k))
    (hn : ∀ k < 12, pixelMonths day night latitude longitude k = some (nm k))
    {f : Int} {w : Bool} (hpick : pickFreq freqAttr infer times = .ok (f, w)) (hf : 0 < f) (hfd : f ∣ dayNs) {r : Tamb}
    (h : getClearskyTamb day night freqAttr infer (some off) weight size times latitude longitude = .ok r) :
    r.values.length = times.length ∧ r.nanWarning = false ∧ r.inferWarning = w ∧
      ∀ (j : Nat) (t : Int), times[j]? = some t → ∃ g, Spec.IsNearest f t g ∧
        r.values[j]? = some (some (getTemperature (hourOfDay t) (Spec.atTime nm weight size g) (Spec.atTime dm weight size g)
          ((longitude : ℝ) / 180 * 12 - off))) := by
  cases times with
  | nil =>
    unfold getClearskyTamb at h
    rw [hpick] at h
    cases h
  | cons t0 l =>
    unfold getClearskyTamb at h
    rw [hpick] at h
    simp only [Except.bind, Except.ok.injEq] at h
    have key : ∀ t ∈ t0 :: l, ∃ g, Spec.IsNearest f t g ∧
        tambAt day night latitude longitude off weight size f (dailyDays size t0 ((t0 :: l).getLastD t0)) t =
          some (getTemperature (hourOfDay t) (Spec.atTime nm weight size g) (Spec.atTime dm weight size g)
          ((longitude : ℝ) / 180 * 12 - off)) := by
      intro t ht
      have h1 : t0 ≤ t := by
        rcases List.mem_cons.mp ht with rfl | h'
        · exact le_refl _
        · exact (List.pairwise_cons.mp hsorted).1 t h'
      have h2 := getLast_ge hsorted ht t0
      obtain ⟨g, hg, hp, hlo, hhi⟩ := gridPos_spec hf hfd hs h1 h2
      refine ⟨g, hg, ?_⟩
      unfold tambAt clearskyTamb
      rw [hp, smoothed_atTime hd weight hs (h1.trans h2) hlo hhi, smoothed_atTime hn weight hs (h1.trans h2) hlo hhi]
    subst h
    refine ⟨by simp, ?_, rfl, ?_⟩
    · rw [List.any_eq_false]
      intro v hv
      obtain ⟨t, ht, rfl⟩ := List.mem_map.mp hv
      obtain ⟨g, -, e⟩ := key t ht
      rw [e]; simp
    · intro j t hj
      obtain ⟨g, hg, e⟩ := key t (List.mem_of_getElem? hj)
      refine ⟨g, hg, ?_⟩
      rw [List.getElem?_map, hj, Option.map_some, e]

/-- **C102 (independence).** Two calls for different periods at the same place and frequency return the same temperature at
every time both of them ask for. -/
theorem C102_independent {day night : TempMap} {freqAttr freqAttr' : Option Int}
    {infer : List Int → Except PyErr (Option Int)} {off : ℝ} {weight : Nat → ℝ} {size : Nat} (hs : 1 ≤ size)
    {times times' : List Int} (hsorted : times.Pairwise (· ≤ ·)) (hsorted' : times'.Pairwise (· ≤ ·))
    {latitude longitude : ℚ} {dm nm : Nat → ℝ}
    (hd : ∀ k < 12, pixelMonths day day latitude longitude k = some (dm k))
    (hn : ∀ k < 12, pixelMonths day night latitude longitude k = some (nm k))
    {f : Int} {w w' : Bool} (hpick : pickFreq freqAttr infer times = .ok (f, w))
    (hpick' : pickFreq freqAttr' infer times' = .ok (f, w')) (hf : 0 < f) (hfd : f ∣ dayNs) {r r' : Tamb}
    (h : getClearskyTamb day night freqAttr infer (some off) weight size times latitude longitude = .ok r)
    (h' : getClearskyTamb day night freqAttr' infer (some off) weight size times' latitude longitude = .ok r')
    {i j : Nat} {t : Int} (hi : times[i]? = some t) (hj : times'[j]? = some t) : r.values[i]? = r'.values[j]? := by
  obtain ⟨-, -, -, h1⟩ := C102_value hs hsorted hd hn hpick hf hfd h
  obtain ⟨-, -, -, h2⟩ := C102_value hs hsorted' hd hn hpick' hf hfd h'
  obtain ⟨g, hg, e⟩ := h1 i t hi
  obtain ⟨g', hg', e'⟩ := h2 j t hj
  rw [e, e', isNearest_unique hg hg']

/-- **C102 (solar time).** The phase of the daily cycle is the solar time: the same instant expressed in another zone, `d` hours
ahead, gives the same temperature from the same day and night values. -/
theorem C102_solar_time (h night day off longitude d : ℝ) :
    getTemperature (h + d) night day (longitude / 180 * 12 - (off + d)) =
      getTemperature h night day (longitude / 180 * 12 - off) := by
  unfold getTemperature
  congr 6
  ring

theorem smooth_none (weight : Nat → ℝ) (size : Nat) {x : List (Option ℝ)} (h : ∀ v ∈ x, v = none) :
    ∀ v ∈ smooth weight size x, v = none := by
  intro v hv
  obtain ⟨i, -, rfl⟩ := List.mem_map.mp hv
  have : windowValues x weight ((i : Int) - ((size / 2 : Nat) : Int)) size = [] := by
    unfold windowValues
    rw [List.filterMap_eq_nil_iff]
    intro k _
    split_ifs
    · have hx : x.getD ((i : Int) - ((size / 2 : Nat) : Int) + k).toNat none = none := by
        rw [List.getD_eq_getElem?_getD]
        cases hx : x[((i : Int) - ((size / 2 : Nat) : Int) + k).toNat]? with
        | none => rfl
        | some o => rw [Option.getD_some]; exact h o (List.mem_of_getElem? hx)
      rw [hx]; rfl
    · rfl
  rw [this]
  rfl

theorem interpolate_none {x : List (Option ℝ)} (h : ∀ v ∈ x, v = none) (i : Nat) (θ : ℝ) : interpolate x i θ = none := by
  unfold interpolate
  have : lastValid x i = none := by
    cases hl : lastValid x i with
    | none => rfl
    | some p =>
      obtain ⟨-, hu⟩ := lastValid_spec (a := p.1) (u := p.2) hl
      rw [List.getD_eq_getElem?_getD] at hu
      cases hx : x[p.1]? with
      | none => rw [hx] at hu; cases hu
      | some o =>
        rw [hx, Option.getD_some] at hu
        rw [h o (List.mem_of_getElem? hx)] at hu
        cases hu
  rw [this]

/-- **C102 (no data).** Where the day map has no value in any month, for instance off the map, no time gets a temperature, and
the warning about missing values is given. -/
theorem C102_no_data {day night : TempMap} {freqAttr : Option Int} {infer : List Int → Except PyErr (Option Int)} {off : ℝ}
    {weight : Nat → ℝ} {size : Nat} {times : List Int} {latitude longitude : ℚ}
    (hd : ∀ k < 12, pixelMonths day day latitude longitude k = none) {r : Tamb}
    (h : getClearskyTamb day night freqAttr infer (some off) weight size times latitude longitude = .ok r) :
    r.values = times.map (fun _ => none) ∧ r.nanWarning = true := by
  cases times with
  | nil =>
    unfold getClearskyTamb at h
    cases hp : pickFreq freqAttr infer [] with
    | error e => rw [hp] at h; cases h
    | ok fw => rw [hp] at h; cases h
  | cons t0 l =>
    unfold getClearskyTamb at h
    cases hp : pickFreq freqAttr infer (t0 :: l) with
    | error e => rw [hp] at h; cases h
    | ok fw =>
      rw [hp] at h
      simp only [Except.bind, Except.ok.injEq] at h
      subst h
      have key : ∀ days t, tambAt day night latitude longitude off weight size fw.1 days t = none := by
        intro days t
        unfold tambAt clearskyTamb
        rw [interpolate_none]
        apply smooth_none
        intro v hv
        obtain ⟨m, -, rfl⟩ := List.mem_map.mp hv
        split_ifs with hc
        · exact hd _ (by omega)
        · rfl
      constructor
      · apply List.map_congr_left
        intro t _
        exact key _ t
      · rw [List.any_eq_true]
        exact ⟨none, List.mem_map.mpr ⟨t0, List.mem_cons_self .., key _ t0⟩, rfl⟩

/-- **C102 (frequency).** A frequency on the index is used as it is; else the inferred one; else that of the first ten times,
with a warning; without any the call fails. -/
theorem C102_frequency (infer : List Int → Except PyErr (Option Int)) (times : List Int) :
    (∀ f, pickFreq (some f) infer times = .ok (f, false)) ∧
    (∀ f, infer times = .ok (some f) → pickFreq none infer times = .ok (f, false)) ∧
    (infer times = .ok none → ∀ f, infer (times.take 10) = .ok (some f) → pickFreq none infer times = .ok (f, true)) ∧
    (infer times = .ok none → infer (times.take 10) = .ok none → ∃ e, pickFreq none infer times = .error e) := by
  refine ⟨fun f => rfl, fun f h => ?_, fun h f h' => ?_, fun h h' => ⟨.typeError, ?_⟩⟩
  · unfold pickFreq; rw [h]; rfl
  · unfold pickFreq; rw [h]; simp only [Except.bind]; rw [h']
  · unfold pickFreq; rw [h]; simp only [Except.bind]; rw [h']

/-- **C102 (time of day).** The time of day that enters the daily cycle is the number of whole minutes since local midnight,
in hours. -/
theorem C102_time_of_day (t : Int) : ∃ minutes : Int, 0 ≤ minutes ∧ minutes < 24 * 60 ∧
    minutes * 60000000000 ≤ t % (24 * 3600000000000) ∧ t % (24 * 3600000000000) < (minutes + 1) * 60000000000 ∧
    hourOfDay t = (minutes : ℝ) / 60 := by
  refine ⟨t % (24 * 3600000000000) / 60000000000, by omega, by omega, by omega, by omega, ?_⟩
  have hday : dayNs = 24 * 3600000000000 := by decide
  have e : t % (24 * 3600000000000) / 60000000000 =
      t % dayNs / 3600000000000 * 60 + t % 3600000000000 / 60000000000 := by rw [hday]; omega
  unfold hourOfDay
  rw [e]
  push_cast
  ring

/-- **C102 (refused times).** Times without a time zone and an empty index are refused. -/
theorem C102_refused {day night : TempMap} {freqAttr : Option Int} {infer : List Int → Except PyErr (Option Int)}
    {weight : Nat → ℝ} {size : Nat} {times : List Int} {latitude longitude : ℚ} {off : Option ℝ}
    (h : off = none ∨ times = []) :
    ∃ e, getClearskyTamb day night freqAttr infer off weight size times latitude longitude = .error e := by
  unfold getClearskyTamb
  cases pickFreq freqAttr infer times with
  | error e => exact ⟨e, rfl⟩
  | ok fw =>
    simp only [Except.bind]
    cases times with
    | nil => exact ⟨_, rfl⟩
    | cons t l =>
      rcases h with h | h
      · subst h; exact ⟨_, rfl⟩
      · cases h

/-- **C102 (pixel).** Day and night values come from the same pixel, the one that the size of the day map gives: column and row
are the longitude counted from 180° W and `90° - latitude` in units of the pixels of the day map, rounded. Whatever the size
of the night map, it matters only if that pixel lies outside of it. -/
theorem C102_pixel (day night : TempMap) (latitude longitude : ℚ) :
    ∃ i j : Int, |(i : ℚ) - day.lons * (if longitude < 180 then longitude + 180 else longitude - 180) / 360| ≤ 1 / 2 ∧ |(j : ℚ) - day.lats * (90 - latitude) / 180| ≤ 1 / 2 ∧
      ∀ k, pixelMonths day day latitude longitude k =
          (if (0 ≤ i ∧ i < day.lons) ∧ 0 ≤ j ∧ j < day.lats then day.value i.toNat j.toNat k else none).map (fun q : ℚ => (q : ℝ)) ∧
        pixelMonths day night latitude longitude k =
          (if (0 ≤ i ∧ i < night.lons) ∧ 0 ≤ j ∧ j < night.lats then night.value i.toNat j.toNat k else none).map
            (fun q : ℚ => (q : ℝ)) := by
  have hnear : ∀ q : ℚ, |(roundHE q : ℚ) - q| ≤ 1 / 2 := by
    intro q
    have h1 := Int.floor_le q
    have h2 := Int.lt_floor_add_one q
    rw [abs_le]
    unfold roundHE
    simp only
    split_ifs <;> push_cast <;> constructor <;> linarith
  have hlon : lonTemp longitude = if longitude < 180 then longitude + 180 else longitude - 180 := by
    unfold lonTemp
    by_cases h : longitude < 180
    · rw [if_pos (by linarith), if_pos h]; ring
    · rw [if_neg (by linarith), if_neg h]
  refine ⟨lonIndex day.lons longitude, latIndex day.lats latitude, ?_, hnear _, fun k => ?_⟩
  · rw [← hlon]; exact hnear _
  unfold pixelMonths
  rw [pixel_zero, pixel_zero]
  exact ⟨rfl, rfl⟩

/-! ## Examples -/

/-- one pixel with a value in every month -/
def exPixel : TempMap := ⟨1, 1, fun _ _ k => some k⟩

example : Spec.IsNearest 3600000000000 5400000000000 7200000000000 := by
  refine ⟨⟨2, by norm_num⟩, by norm_num, by norm_num⟩
example : nearestGrid 3600000000000 5400000000000 = 7200000000000 := by decide +kernel
/-- two days before to two days after 30 and 31 January 1970: months 1 and 2 -/
example : monthsOf (dailyDays 2 (29 * dayNs) (30 * dayNs + 5)) = [1, 1, 1, 1, 2, 2] := by decide +kernel
example : gridPos 3600000000000 (dailyDays 2 (29 * dayNs) (30 * dayNs + 5)) (29 * dayNs + 5400000000000) =
    2 * dayNs + 7200000000000 := by decide +kernel
/-- the place in the middle of the pixel meets the hypotheses -/
example : ∀ k < 12, pixelMonths exPixel exPixel 80 (-170) k = some ((k : ℚ) : ℝ) := by
  intro k _
  have : getPixelValue exPixel (lonIndex exPixel.lons (-170)) (latIndex exPixel.lats 80) k 0 = some (k : ℚ) := by
    have h1 : lonIndex exPixel.lons (-170) = 0 := by decide +kernel
    have h2 : latIndex exPixel.lats 80 = 0 := by decide +kernel
    rw [h1, h2, pixel_zero, if_pos (by decide)]
    rfl
  unfold pixelMonths
  rw [this]
  rfl
/-- a call that succeeds, on three hourly times -/
example : ∃ r, getClearskyTamb exPixel exPixel (some 3600000000000) (fun _ => .ok none) (some 1) (fun _ => 1) 40
    [0, 3600000000000, 7200000000000] 80 (-170) = .ok r := ⟨_, rfl⟩
example : (3600000000000 : Int) ∣ dayNs := by decide

end Verif.Clearsky
