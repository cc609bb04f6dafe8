import Verif.Model.ClearskyTemp
import Verif.Lemmas.SrrFit
import Verif.Lemmas.Percentile

/-! # Properties C58 and C59 (clear-sky ambient temperature) -/

namespace Verif.Clearsky

open Verif

theorem roundHE_lt {q : ℚ} {n : Int} (h : q < n - 1 / 2) : roundHE q < n := by
  have := roundHE_le q
  have : (roundHE q : ℚ) < n := by linarith
  exact_mod_cast this

theorem roundHE_eq {q : ℚ} {n : Int} (h1 : (n : ℚ) - 1 / 2 < q) (h2 : q < n + 1 / 2) : roundHE q = n := by
  have a := roundHE_le q
  have b := roundHE_ge q
  have c : (roundHE q : ℚ) < n + 1 := by linarith
  have d : (n : ℚ) - 1 < roundHE q := by linarith
  have c' : roundHE q < n + 1 := by exact_mod_cast c
  have d' : n - 1 < roundHE q := by exact_mod_cast d
  omega

theorem roundHE_nonneg {q : ℚ} (h : 0 ≤ q) : 0 ≤ roundHE q := by
  have b := roundHE_ge q
  have : (-1 : ℚ) < roundHE q := by linarith
  have : -1 < roundHE q := by exact_mod_cast this
  omega

theorem lonTemp_eq {lon : ℚ} : lonTemp lon = if lon < 180 then lon + 180 else lon - 180 := by
  unfold lonTemp
  by_cases h : lon < 180
  · rw [if_pos (by linarith), if_pos h]; ring
  · rw [if_neg (by linarith), if_neg h]

theorem span_zero {i : Int} {n : Nat} : span i 0 n = if 0 ≤ i ∧ i < n then [i.toNat] else [] := by
  unfold span
  simp only [Nat.mul_zero, Nat.zero_add, List.range_one]
  by_cases h : 0 ≤ i ∧ i < n
  · rw [if_pos h]; simp [h.1, h.2]
  · rw [if_neg h]; simp only [List.filterMap_cons, List.filterMap_nil]
    rw [if_neg (by simpa using h)]

theorem pixel_zero (m : TempMap) (i j : Int) (k : Nat) :
    getPixelValue m i j k 0 = if (0 ≤ i ∧ i < m.lons) ∧ (0 ≤ j ∧ j < m.lats) then m.value i.toNat j.toNat k else none := by
  unfold getPixelValue
  rw [span_zero, span_zero]
  by_cases h1 : 0 ≤ i ∧ i < m.lons
  · by_cases h2 : 0 ≤ j ∧ j < m.lats
    · rw [if_pos h1, if_pos h2, if_pos ⟨h1, h2⟩]
      simp only [List.map_cons, List.map_nil, List.flatMap_cons, List.flatMap_nil, List.append_nil]
      cases hv : m.value i.toNat j.toNat k with
      | none => rfl
      | some v =>
        have hs : (median (valids [some v])).isSome := median_isSome.mpr (by simp [valids])
        obtain ⟨w, hw⟩ := Option.isSome_iff_exists.mp hs
        rw [hw, median_const hw (c := v) (by simp [valids])]
    · rw [if_pos h1, if_neg h2, if_neg (fun h => h2 h.2)]; rfl
  · rw [if_neg h1, if_neg (show ¬ ((0 ≤ i ∧ i < m.lons) ∧ (0 ≤ j ∧ j < m.lats)) from fun h => h1 h.1)]; rfl

theorem index_bounds {n : Nat} (hn : 0 < n) {t size : ℚ} (h0 : 0 ≤ t) (hsz : 0 < size) (h : t < size - size / 2 / n) :
    0 ≤ roundHE (n * t / size) ∧ roundHE (n * t / size) < n := by
  have hn' : (0 : ℚ) < n := by exact_mod_cast hn
  refine ⟨roundHE_nonneg (by positivity), roundHE_lt (n := (n : Int)) ?_⟩
  rw [div_lt_iff₀ hsz]
  have : (n : ℚ) * t < n * (size - size / 2 / n) := mul_lt_mul_of_pos_left h hn'
  have e : (n : ℚ) * (size - size / 2 / n) = (n - 1 / 2) * size := by field_simp
  rw [e] at this
  push_cast
  exact this

theorem index_over {n : Nat} (hn : 0 < n) {t size : ℚ} (hsz : 0 < size) (h : size - size / 2 / n < t) :
    (n : Int) ≤ roundHE (n * t / size) := by
  have hn' : (0 : ℚ) < n := by exact_mod_cast hn
  have h1 : (n : ℚ) - 1 / 2 < n * t / size := by
    rw [lt_div_iff₀ hsz]
    have : (n : ℚ) * (size - size / 2 / n) < n * t := mul_lt_mul_of_pos_left h hn'
    have e : (n : ℚ) * (size - size / 2 / n) = (n - 1 / 2) * size := by field_simp
    rw [e] at this
    exact this
  have h2 := roundHE_ge (n * t / size)
  have : (n : ℚ) - 1 < roundHE (n * t / size) := by linarith
  have : ((n : Int) : ℚ) - 1 < roundHE (n * t / size) := by exact_mod_cast this
  have : (n : Int) - 1 < roundHE (n * t / size) := by exact_mod_cast this
  omega

/-- Full claim: every location hits a pixel. Proved here for locations more than half a pixel away from the eastern edge
of the map (180 degrees) and from its southern edge; `C58_east_edge_refuted` and `C58_south_edge_refuted` show that the
rest is false. The pixel starts at most half a pixel away from the location. -/
theorem C58_on_map_partial {m : TempMap} {lat lon : ℚ} (hw : 0 < m.lons) (hh : 0 < m.lats)
    (hlon : -180 ≤ lon ∧ lon < 180 - 180 / m.lons) (hlat : -90 + 90 / m.lats < lat ∧ lat ≤ 90) :
    ∃ x y, x < m.lons ∧ y < m.lats ∧ (∀ k, pixelAt m lat lon k = m.value x y k) ∧
      |(x : ℚ) * (360 / m.lons) - (lon + 180)| ≤ 180 / m.lons ∧
      |(y : ℚ) * (180 / m.lats) - (90 - lat)| ≤ 90 / m.lats := by
  have hw' : (0 : ℚ) < m.lons := by exact_mod_cast hw
  have hh' : (0 : ℚ) < m.lats := by exact_mod_cast hh
  have hlt : lonTemp lon = lon + 180 := by
    rw [lonTemp_eq, if_pos]
    have : 0 < 180 / (m.lons : ℚ) := by positivity
    linarith
  obtain ⟨x0, x1⟩ := index_bounds hw (t := lon + 180) (size := 360) (by linarith) (by norm_num) (by
    have : (360 : ℚ) / 2 / m.lons = 180 / m.lons := by norm_num
    rw [this]; linarith)
  obtain ⟨y0, y1⟩ := index_bounds hh (t := 90 - lat) (size := 180) (by linarith) (by norm_num) (by
    have : (180 : ℚ) / 2 / m.lats = 90 / m.lats := by norm_num
    rw [this]; linarith)
  have near : ∀ (n : ℚ) (t size : ℚ), 0 < n → 0 < size → 0 ≤ roundHE (n * t / size) →
      |((roundHE (n * t / size)).toNat : ℚ) * (size / n) - t| ≤ size / 2 / n := by
    intro n t size hn hs h0
    have e : ((roundHE (n * t / size)).toNat : ℚ) = (roundHE (n * t / size) : ℚ) := by
      exact_mod_cast Int.toNat_of_nonneg h0
    have a := roundHE_le (n * t / size)
    have b := roundHE_ge (n * t / size)
    have e2 : (roundHE (n * t / size) : ℚ) * (size / n) - t = ((roundHE (n * t / size) : ℚ) - n * t / size) * (size / n) := by
      field_simp
    rw [e, e2, abs_mul, abs_of_pos (by positivity : 0 < size / n)]
    have : |((roundHE (n * t / size) : ℚ) - n * t / size)| ≤ 1 / 2 := abs_le.mpr ⟨by linarith, by linarith⟩
    calc _ ≤ 1 / 2 * (size / n) := by gcongr
      _ = size / 2 / n := by ring
  refine ⟨(roundHE (m.lons * (lon + 180) / 360)).toNat, (roundHE (m.lats * (90 - lat) / 180)).toNat, by omega, by omega,
    ?_, ?_, ?_⟩
  · intro k
    unfold pixelAt lonIndex latIndex
    rw [hlt, pixel_zero, if_pos ⟨⟨x0, x1⟩, y0, y1⟩]
  · have := near m.lons (lon + 180) 360 hw' (by norm_num) x0
    have e : (360 : ℚ) / 2 / m.lons = 180 / m.lons := by norm_num
    rwa [e] at this
  · have := near m.lats (90 - lat) 180 hh' (by norm_num) y0
    have e : (180 : ℚ) / 2 / m.lats = 90 / m.lats := by norm_num
    rwa [e] at this

/-- within half a pixel of the eastern edge of any map the look-up misses the map, even if every pixel has a value -/
theorem C58_east_edge_refuted {m : TempMap} (hw : 0 < m.lons) {lat lon : ℚ} (h : 180 - 180 / m.lons < lon ∧ lon < 180)
    (k : Nat) : pixelAt m lat lon k = none := by
  have hlt : lonTemp lon = lon + 180 := by rw [lonTemp_eq, if_pos h.2]
  have := index_over hw (t := lon + 180) (size := 360) (by norm_num) (by
    have : (360 : ℚ) / 2 / m.lons = 180 / m.lons := by norm_num
    rw [this]; linarith [h.1])
  unfold pixelAt lonIndex
  rw [hlt, pixel_zero, if_neg]
  rintro ⟨⟨-, h2⟩, -⟩
  omega

/-- within half a pixel of the southern edge the look-up misses the map -/
theorem C58_south_edge_refuted {m : TempMap} (hh : 0 < m.lats) {lat lon : ℚ} (h : lat < -90 + 90 / m.lats) (k : Nat) :
    pixelAt m lat lon k = none := by
  have := index_over hh (t := 90 - lat) (size := 180) (by norm_num) (by
    have : (180 : ℚ) / 2 / m.lats = 90 / m.lats := by norm_num
    rw [this]; linarith)
  unfold pixelAt latIndex
  rw [pixel_zero, if_neg]
  rintro ⟨-, -, h2⟩
  omega

/-- the look-up rounds to the nearest pixel edge: a location in the eastern half of column `x` gets the value of
column `x + 1` (columns start at 180 degrees west) -/
theorem C58_eastern_half_refuted {m : TempMap} {lat lon : ℚ} {x : Nat} (hx : x + 1 < m.lons)
    (h1 : ((x : ℚ) + 1 / 2) * (360 / m.lons) < lon + 180) (h2 : lon + 180 < (x + 1) * (360 / m.lons)) (k : Nat)
    (hj : 0 ≤ latIndex m.lats lat ∧ latIndex m.lats lat < m.lats) :
    pixelAt m lat lon k = m.value (x + 1) (latIndex m.lats lat).toNat k := by
  have hw' : (0 : ℚ) < m.lons := by exact_mod_cast (by omega : 0 < m.lons)
  have hx' : (x : ℚ) + 1 < m.lons := by exact_mod_cast hx
  have hlt : lonTemp lon = lon + 180 := by
    rw [lonTemp_eq, if_pos]
    have : ((x : ℚ) + 1) * (360 / m.lons) < m.lons * (360 / m.lons) := by gcongr
    have e : (m.lons : ℚ) * (360 / m.lons) = 360 := by field_simp
    linarith
  have e1 : ((x : ℚ) + 1 / 2) < m.lons * (lon + 180) / 360 := by
    rw [lt_div_iff₀ (by norm_num)]
    have := mul_lt_mul_of_pos_left h1 hw'
    have e : (m.lons : ℚ) * (((x : ℚ) + 1 / 2) * (360 / m.lons)) = (x + 1 / 2) * 360 := by field_simp
    linarith
  have e2 : (m.lons : ℚ) * (lon + 180) / 360 < x + 1 := by
    rw [div_lt_iff₀ (by norm_num)]
    have := mul_lt_mul_of_pos_left h2 hw'
    have e : (m.lons : ℚ) * (((x : ℚ) + 1) * (360 / m.lons)) = (x + 1) * 360 := by field_simp
    linarith
  have hr : roundHE (m.lons * (lon + 180) / 360) = ((x + 1 : Nat) : Int) := by
    apply roundHE_eq
    · push_cast; linarith
    · push_cast; linarith
  unfold pixelAt lonIndex
  rw [hlt, hr, pixel_zero, if_pos ⟨⟨by omega, by omega⟩, hj⟩]
  rfl

/-- the value of a neighbourhood lies between the values of the map -/
theorem C58_neighbourhood {m : TempMap} {i j : Int} {k radius : Nat} {v lo hi : ℚ}
    (h : getPixelValue m i j k radius = some v)
    (hb : ∀ x y c, x < m.lons → y < m.lats → m.value x y k = some c → lo ≤ c ∧ c ≤ hi) : lo ≤ v ∧ v ≤ hi := by
  unfold getPixelValue at h
  have mem : ∀ c ∈ valids ((span i radius m.lons).flatMap fun x => (span j radius m.lats).map fun y => m.value x y k),
      lo ≤ c ∧ c ≤ hi := by
    intro c hc
    have hspan : ∀ (i : Int) (n x : Nat), x ∈ span i radius n → x < n := by
      intro i n x hx
      unfold span at hx
      obtain ⟨a, -, ha⟩ := List.mem_filterMap.mp hx
      split_ifs at ha with hc
      cases ha
      omega
    simp only [valids, List.mem_filterMap, List.mem_flatMap, List.mem_map, id_eq] at hc
    obtain ⟨o, ⟨x, hx, y, hy, hv⟩, ho⟩ := hc
    rw [ho] at hv
    exact hb x y c (hspan _ _ _ hx) (hspan _ _ _ hy) hv
  exact ⟨median_ge h fun x hx => (mem x hx).1, median_le h fun x hx => (mem x hx).2⟩

/-! ## Daily cycle -/

/-- the temperature stays within 35 % of the day-night difference around the mean of day and night -/
theorem C59_swing (h night day off : ℝ) :
    |getTemperature h night day off - (day + night) / 2| ≤ 0.35 * |day - night| := by
  unfold getTemperature
  have e : ∀ c : ℝ, (day - night) * 0.5 * c * 0.7 + (day + night) / 2 - (day + night) / 2 = 0.35 * ((day - night) * c) := by
    intro c; ring
  rw [e, abs_mul, abs_mul, abs_of_pos (by norm_num : (0 : ℝ) < 0.35)]
  have := Real.abs_cos_le_one ((h + (8 + off)) / 24 * 2 * Real.pi)
  have h2 := abs_nonneg (day - night)
  nlinarith

/-- the bound is attained eight hours before midnight of solar time: 16:00 minus the offset is the extreme -/
theorem C59_peak (night day off : ℝ) :
    getTemperature (16 - off) night day off = (day + night) / 2 + 0.35 * (day - night) ∧
    getTemperature (4 - off) night day off = (day + night) / 2 - 0.35 * (day - night) := by
  unfold getTemperature
  have e1 : (16 - off + (8 + off)) / 24 * 2 * Real.pi = 2 * Real.pi := by ring
  have e2 : (4 - off + (8 + off)) / 24 * 2 * Real.pi = Real.pi := by ring
  rw [e1, e2, Real.cos_two_pi, Real.cos_pi]
  constructor <;> ring

/-- the cycle repeats every 24 hours -/
theorem C59_periodic (h night day off : ℝ) (n : ℤ) :
    getTemperature (h + 24 * n) night day off = getTemperature h night day off := by
  unfold getTemperature
  have e : (h + 24 * n + (8 + off)) / 24 * 2 * Real.pi = (h + (8 + off)) / 24 * 2 * Real.pi + n * (2 * Real.pi) := by ring
  rw [e, Real.cos_add_int_mul_two_pi]

/-- twelve hours apart the deviations from the mean are opposite, so the daily mean is the mean of day and night -/
theorem C59_mean (h night day off : ℝ) :
    (getTemperature h night day off + getTemperature (h + 12) night day off) / 2 = (day + night) / 2 := by
  unfold getTemperature
  have e : (h + 12 + (8 + off)) / 24 * 2 * Real.pi = (h + (8 + off)) / 24 * 2 * Real.pi + Real.pi := by ring
  rw [e, Real.cos_add_pi]
  ring

/-! ## Smoothing -/

section Smoothing
variable {K : Type} [Field K] [LinearOrder K] [IsStrictOrderedRing K]

/-- every present value lies between `lo` and `hi` -/
def Spec.Within (lo hi : K) (x : List (Option K)) : Prop := ∀ v, some v ∈ x → lo ≤ v ∧ v ≤ hi

theorem daily_within {lo hi : K} {monthly : Nat → Option K} (h : ∀ k < 12, ∀ v, monthly k = some v → lo ≤ v ∧ v ≤ hi)
    (months : List Nat) : Spec.Within lo hi (daily monthly months) := by
  intro v hv
  obtain ⟨m, -, hm⟩ := List.mem_map.mp hv
  split_ifs at hm with hc
  exact h _ (by omega) v hm

theorem weightedMean_within {lo hi : K} {l : List (K × K)} {v : K} (hw : ∀ p ∈ l, 0 < p.1)
    (hb : ∀ p ∈ l, lo ≤ p.2 ∧ p.2 ≤ hi) (h : weightedMean l = some v) : lo ≤ v ∧ v ≤ hi := by
  unfold weightedMean at h
  split_ifs at h with hn
  cases h
  have key : ∀ l : List (K × K), (∀ p ∈ l, 0 < p.1) → (∀ p ∈ l, lo ≤ p.2 ∧ p.2 ≤ hi) →
      lo * (l.map fun p => p.1).sum ≤ (l.map fun p => p.1 * p.2).sum ∧
      (l.map fun p => p.1 * p.2).sum ≤ hi * (l.map fun p => p.1).sum ∧ 0 ≤ (l.map fun p => p.1).sum := by
    intro l
    induction l with
    | nil => intro _ _; simp
    | cons p l ih =>
      intro h1 h2
      obtain ⟨a, b, c⟩ := ih (fun q hq => h1 q (List.mem_cons_of_mem _ hq)) (fun q hq => h2 q (List.mem_cons_of_mem _ hq))
      have p1 := h1 p List.mem_cons_self
      obtain ⟨p2, p3⟩ := h2 p List.mem_cons_self
      simp only [List.map_cons, List.sum_cons]
      exact ⟨by nlinarith, by nlinarith, by linarith⟩
  obtain ⟨a, b, -⟩ := key l hw hb
  have pos : 0 < (l.map fun p => p.1).sum := by
    cases l with
    | nil => exact absurd rfl hn
    | cons p l =>
      have := (key l (fun q hq => hw q (List.mem_cons_of_mem _ hq)) (fun q hq => hb q (List.mem_cons_of_mem _ hq))).2.2
      have p1 := hw p List.mem_cons_self
      simp only [List.map_cons, List.sum_cons]; linarith
  exact ⟨(le_div_iff₀ pos).mpr a, (div_le_iff₀ pos).mpr b⟩

theorem getD_within {lo hi : K} {x : List (Option K)} (h : Spec.Within lo hi x) {i : Nat} {v : K}
    (hv : x.getD i none = some v) : lo ≤ v ∧ v ≤ hi := by
  apply h
  rw [List.getD_eq_getElem?_getD] at hv
  cases hx : x[i]? with
  | none => rw [hx] at hv; cases hv
  | some o =>
    rw [hx] at hv
    simp only [Option.getD_some] at hv
    exact hv ▸ List.mem_of_getElem? hx

theorem smooth_within {lo hi : K} {x : List (Option K)} (h : Spec.Within lo hi x) {weight : Nat → K}
    (hw : ∀ k, 0 < weight k) (size : Nat) : Spec.Within lo hi (smooth weight size x) := by
  intro v hv
  obtain ⟨i, -, hi'⟩ := List.mem_map.mp hv
  refine weightedMean_within (l := windowValues x weight ((i : Int) - ((size / 2 : Nat) : Int)) size) ?_ ?_ hi'
  · intro p hp
    obtain ⟨k, -, hk⟩ := List.mem_filterMap.mp hp
    split_ifs at hk
    obtain ⟨u, -, rfl⟩ := Option.map_eq_some_iff.mp hk
    exact hw k
  · intro p hp
    obtain ⟨k, -, hk⟩ := List.mem_filterMap.mp hp
    split_ifs at hk
    obtain ⟨u, hu, rfl⟩ := Option.map_eq_some_iff.mp hk
    exact getD_within h hu

theorem lastValid_spec {x : List (Option K)} {i a : Nat} {u : K} (h : lastValid x i = some (a, u)) :
    a ≤ i ∧ x.getD a none = some u := by
  induction i with
  | zero =>
    obtain ⟨v, hv, e⟩ := Option.map_eq_some_iff.mp h
    cases e
    exact ⟨le_rfl, hv⟩
  | succ i ih =>
    unfold lastValid at h
    split at h
    · next v hv => cases h; exact ⟨le_rfl, hv⟩
    · exact ⟨(ih h).1.trans (Nat.le_succ i), (ih h).2⟩

theorem nextValid_spec {x : List (Option K)} {i b : Nat} {v : K} (h : nextValid x i = some (b, v)) :
    i < b ∧ x.getD b none = some v := by
  unfold nextValid at h
  have hm := List.mem_of_head? h
  obtain ⟨j, -, hj⟩ := List.mem_filterMap.mp hm
  split_ifs at hj with hc
  obtain ⟨w, hw, e⟩ := Option.map_eq_some_iff.mp hj
  cases e
  exact ⟨hc, hw⟩

theorem interpolate_within {lo hi : K} {x : List (Option K)} (h : Spec.Within lo hi x) {i : Nat} {θ v : K}
    (hθ : 0 ≤ θ ∧ θ ≤ 1) (hv : interpolate x i θ = some v) : lo ≤ v ∧ v ≤ hi := by
  unfold interpolate at hv
  split at hv
  · cases hv
  · next a u hl =>
    obtain ⟨ha, hu⟩ := lastValid_spec hl
    obtain ⟨u1, u2⟩ := getD_within h hu
    split at hv
    · cases hv; exact ⟨u1, u2⟩
    · next b w hn =>
      cases hv
      obtain ⟨hb, hw⟩ := nextValid_spec hn
      obtain ⟨w1, w2⟩ := getD_within h hw
      have ha' : (a : K) ≤ i := by exact_mod_cast ha
      have hb' : (i : K) + 1 ≤ b := by exact_mod_cast hb
      have pos : (0 : K) < (b : K) - a := by linarith
      have t0 : 0 ≤ ((i : K) + θ - a) / ((b : K) - a) := div_nonneg (by linarith [hθ.1]) pos.le
      have t1 : ((i : K) + θ - a) / ((b : K) - a) ≤ 1 := (div_le_one pos).mpr (by linarith [hθ.2])
      generalize ((i : K) + θ - a) / ((b : K) - a) = t at *
      exact ⟨by nlinarith, by nlinarith⟩

end Smoothing

/-- every temperature returned lies between the lowest and the highest monthly day or night value of the pixel,
whatever the dates, the window, the (positive) weights, the hour and the place -/
theorem C59_range {dayMonthly nightMonthly : Nat → Option ℝ} {months : List Nat} {weight : Nat → ℝ} {size i : Nat}
    {θ hourOfDay utcOffset longitude lo hi t : ℝ} (hw : ∀ k, 0 < weight k) (hθ : 0 ≤ θ ∧ θ ≤ 1)
    (hd : ∀ k < 12, ∀ v, dayMonthly k = some v → lo ≤ v ∧ v ≤ hi)
    (hn : ∀ k < 12, ∀ v, nightMonthly k = some v → lo ≤ v ∧ v ≤ hi)
    (h : clearskyTamb dayMonthly nightMonthly months weight size i θ hourOfDay utcOffset longitude = some t) :
    lo ≤ t ∧ t ≤ hi := by
  unfold clearskyTamb at h
  split at h
  · next d n h1 h2 =>
    cases h
    obtain ⟨d1, d2⟩ := interpolate_within (smooth_within (daily_within hd months) hw size) hθ h1
    obtain ⟨n1, n2⟩ := interpolate_within (smooth_within (daily_within hn months) hw size) hθ h2
    have := abs_le.mp (C59_swing hourOfDay n d (longitude / 180 * 12 - utcOffset))
    rcases abs_cases (d - n) with ⟨e, -⟩ | ⟨e, -⟩ <;> rw [e] at this <;> exact ⟨by linarith, by linarith⟩
  · cases h

/-! ## Examples -/

/-- a map of four columns and two rows -/
def exMap : TempMap := ⟨4, 2, fun x y k => some (10 * x + y + k / 100)⟩

example : (0 < exMap.lons ∧ 0 < exMap.lats) ∧ (-180 ≤ (-10 : ℚ) ∧ (-10 : ℚ) < 180 - 180 / (exMap.lons : ℚ)) ∧
    (-90 + 90 / (exMap.lats : ℚ) < 20 ∧ (20 : ℚ) ≤ 90) := by decide +kernel
example : pixelAt exMap 20 (-10) 0 = some 21 := by decide +kernel
example : pixelAt exMap 20 170 0 = none := by decide +kernel
example : pixelAt exMap (-80) 20 0 = none := by decide +kernel
/-- -40 degrees lies in column 1 (-90 to 0) and gets the value of column 2 -/
example : pixelAt exMap 80 (-40) 0 = some 20 := by decide +kernel
example : getPixelValue exMap 1 1 0 1 = some (21 / 2) := by decide +kernel

/-- monthly values over ℚ: January and February known -/
def exMonthly : Nat → Option ℚ := fun k => if k = 0 then some 2 else if k = 1 then some 5 else none

example : smooth (fun _ => (1 : ℚ)) 3 (daily exMonthly [1, 1, 2, 3, 3, 3]) =
    [some 2, some 3, some (7 / 2), some 5, none, none] := by decide +kernel
example : interpolate (smooth (fun _ => (1 : ℚ)) 3 (daily exMonthly [1, 1, 2, 3, 3, 3])) 1 (1 / 2) = some (13 / 4) := by
  decide +kernel
example : ∃ t, clearskyTamb (fun _ => some 20) (fun _ => some 10) [6, 6, 6] (fun _ => 1) 3 1 0 16 0 0 = some t := by
  simp [clearskyTamb, interpolate, smooth, daily, windowValues, weightedMean, lastValid, nextValid, List.range_succ]
example : getTemperature 16 10 20 0 = 18.5 := by
  have := (C59_peak 10 20 0).1
  norm_num at this ⊢
  exact this

end Verif.Clearsky
