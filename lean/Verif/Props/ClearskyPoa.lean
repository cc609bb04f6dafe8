import Verif.Lemmas.ClearskyPoa

/-! # Property C124 (the modelled clear-sky irradiance) -/

namespace Verif
open Spec

/-- `m` is a simulated minute of the interval from `lo` (excluded) to `hi` (included); minutes are counted from `first`. -/
def Spec.MinuteOf (first lo hi m : Int) : Prop := lo < m ∧ m ≤ hi ∧ ∃ k : Nat, m = first + k * 60000000000

/-- `v` is the average over the simulated minutes of an interval; minutes without a value are left out. -/
def Spec.MinuteAverage (sim : Int → Cell) (first lo hi : Int) (v : Cell) : Prop :=
  ∃ ms : List Int, ms.Nodup ∧ ms ≠ [] ∧ (∀ m, m ∈ ms ↔ MinuteOf first lo hi m) ∧ v = mean (ms.filterMap sim)

/-- **C124 (averages).** With the default times the result has the index of the measured irradiance. The first value is missing;
every other is the average of the simulation over the minutes since the preceding timestamp, of which there is at least one. -/
theorem C124_average {minimize : (ℚ → Cell) → Flt → Flt} {sim : Int → Cell} {poa : Series} {out : List (Int × Flt)}
    (h : clearskyPoaSeries minimize sim none false poa = .ok out) :
    out.map Prod.fst = poa.map Prod.fst ∧
    ∃ first, poa.head?.map Prod.fst = some first ∧ out.head? = some (first, .nan) ∧
      ∀ (i : Nat) (lo hi : Int), poa[i]?.map Prod.fst = some lo → poa[i + 1]?.map Prod.fst = some hi →
        lo < hi ∧ ∃ v, out[i + 1]? = some (hi, Flt.ofCell v) ∧ MinuteAverage sim first lo hi v := by
  obtain ⟨v, hv, rfl⟩ := default_unscaled h
  have hlen := averaged_length hv
  obtain ⟨t0, l, hidx, hs, hg, rfl⟩ := averaged_ok hv
  rw [hidx] at hs hg hlen ⊢
  obtain ⟨hids, hgm⟩ := groupMeans_full hg
  have hget : ∀ (j : Nat) (t : Int), poa[j]?.map Prod.fst = some t → ∃ hj : j < (t0 :: l).length, (t0 :: l)[j] = t := by
    intro j t hj
    rw [← List.getElem?_map, hidx] at hj
    obtain ⟨h1, h2⟩ := List.getElem?_eq_some_iff.mp hj
    exact ⟨h1, h2⟩
  refine ⟨?_, t0, ?_, ?_, ?_⟩
  · rw [List.map_map]
    exact List.map_fst_zip hlen.symm.le
  · rw [← List.head?_map, hidx]; rfl
  · rfl
  · intro i lo hi hlo hhi
    obtain ⟨h1, rfl⟩ := hget i lo hlo
    obtain ⟨h2, rfl⟩ := hget (i + 1) hi hhi
    refine ⟨List.pairwise_iff_getElem.mp hs i (i + 1) h1 h2 (by omega), _, ?_,
      (minuteTimes t0 ((t0 :: l).getLastD t0)).filter (fun t => decide (backfillId (t0 :: l) t = some (i + 1))),
      (nodup_minuteTimes _ _).filter _, ?_, fun m => minutes_of_id hs h2, rfl⟩
    · have hv2 : (none :: (groupMeans (t0 :: l) (minuteTimes t0 ((t0 :: l).getLastD t0)) sim).tail : List Cell)[i + 1]? =
          some (mean (((minuteTimes t0 ((t0 :: l).getLastD t0)).filter
            (fun t => decide (backfillId (t0 :: l) t = some (i + 1)))).filterMap sim)) := by
        rw [List.getElem?_cons_succ, List.getElem?_tail, hgm, List.getElem?_map, List.getElem?_range h2]
        simp only [Option.map_some, Option.some.injEq]
        unfold valids
        rw [List.filterMap_map]
        rfl
      have hz := List.getElem?_zip_eq_some (z := ((t0 :: l)[i + 1], _)).mpr ⟨List.getElem?_eq_getElem h2, hv2⟩
      rw [List.getElem?_map, hz]
      rfl
    · obtain ⟨t, ht, hk⟩ := hids (i + 1) h2
      exact List.ne_nil_of_mem (List.mem_filter.mpr ⟨ht, by simpa using hk⟩)

/-- **C124 (when it is defined).** The averages exist exactly for an index in ascending order, without duplicates, in which every
interval between neighbours holds a minute of the simulation. Otherwise ValueError is raised. -/
theorem C124_defined (minimize : (ℚ → Cell) → Flt → Flt) (sim : Int → Cell) (poa : Series) :
    ((∃ out, clearskyPoaSeries minimize sim none false poa = .ok out) ↔
      ∃ first l, poa.map Prod.fst = first :: l ∧ (first :: l).Pairwise (· < ·) ∧
        ∀ (i : Nat) (lo hi : Int), (first :: l)[i]? = some lo → (first :: l)[i + 1]? = some hi →
          ∃ m, MinuteOf first lo hi m) ∧
    ∀ e, clearskyPoaSeries minimize sim none false poa = .error e → e = .valueError := by
  constructor
  · constructor
    · rintro ⟨out, h⟩
      obtain ⟨v, hv, rfl⟩ := default_unscaled h
      obtain ⟨t0, l, hidx, hs, hg, rfl⟩ := averaged_ok hv
      rw [hidx] at hs hg
      refine ⟨t0, l, hidx, hs, fun i lo hi hlo hhi => ?_⟩
      obtain ⟨h1, rfl⟩ := List.getElem?_eq_some_iff.mp hlo
      obtain ⟨h2, rfl⟩ := List.getElem?_eq_some_iff.mp hhi
      obtain ⟨t, ht, hk⟩ := (groupMeans_full hg).1 (i + 1) h2
      exact ⟨t, (minutes_of_id hs h2).mp (List.mem_filter.mpr ⟨ht, by simpa using hk⟩)⟩
    · rintro ⟨t0, l, hidx, hs, hm⟩
      have hg := groupMeans_length (index := t0 :: l) (times := minuteTimes t0 ((t0 :: l).getLastD t0)) sim (by
        intro k hk
        cases k with
        | zero =>
          refine ⟨t0, mem_minuteTimes.mpr ⟨getLast_ge hs hk, 0, by simp⟩, ?_⟩
          rw [backfillId_iff hs]
          exact ⟨hk, le_refl _, fun j hj => by omega⟩
        | succ i =>
          obtain ⟨m, hm⟩ := hm i _ _ (List.getElem?_eq_getElem (by omega)) (List.getElem?_eq_getElem hk)
          have := (minutes_of_id hs hk).mpr hm
          obtain ⟨a, b⟩ := List.mem_filter.mp this
          exact ⟨m, a, by simpa using b⟩)
      have : averagedClearsky sim (t0 :: l) = .ok (none ::
          (groupMeans (t0 :: l) (minuteTimes t0 ((t0 :: l).getLastD t0)) sim).tail) := by
        unfold averagedClearsky
        simp only
        rw [if_neg (by simpa using hs), if_neg (by simpa using hg)]
      unfold clearskyPoaSeries
      simp only [hidx, this, Except.map, Except.bind]
      exact ⟨_, rfl⟩
  · intro e h
    unfold clearskyPoaSeries at h
    simp only at h
    cases hv : averagedClearsky sim (poa.map Prod.fst) with
    | ok v => rw [hv] at h; simp [Except.map, Except.bind] at h
    | error e' =>
      rw [hv] at h
      simp only [Except.map, Except.bind, Except.error.injEq] at h
      subst h
      unfold averagedClearsky at hv
      cases hp : poa.map Prod.fst with
      | nil => rw [hp] at hv; simp at hv; exact hv.symm
      | cons t0 l =>
        rw [hp] at hv
        simp only at hv
        split_ifs at hv
        · simp at hv; exact hv.symm
        · simp at hv; exact hv.symm

/-- **C124 (regular records).** If the timestamps are a whole number `f` of minutes apart and the simulation has a value for every
minute, the value at a timestamp is the average of the `f` minutes that end at it. -/
theorem C124_regular {minimize : (ℚ → Cell) → Flt → Flt} {g : Int → ℚ} {poa : Series} {t0 : Int} {n f : Nat} (hf : 1 ≤ f)
    (hn : 1 ≤ n) (hidx : poa.map Prod.fst = (List.range n).map fun i : Nat => t0 + i * (f * 60000000000)) :
    clearskyPoaSeries minimize (fun t => some (g t)) none false poa =
      .ok ((List.range n).map fun i : Nat => (t0 + (i : Int) * (f * 60000000000),
        if i = 0 then .nan else
          .fin (((List.range f).map fun j : Nat => g (t0 + (i : Int) * (f * 60000000000) - j * 60000000000)).sum / f))) := by
  obtain ⟨n, rfl⟩ : ∃ m, n = m + 1 := ⟨n - 1, by omega⟩
  have hget : ∀ i < n + 1, (poa.map Prod.fst)[i]? = some (t0 + (i : Int) * (f * 60000000000)) := by
    intro i hi
    rw [hidx, List.getElem?_map, List.getElem?_range hi]
    rfl
  have hget' : ∀ (i : Nat) (t : Int), (poa.map Prod.fst)[i]? = some t → i < n + 1 ∧ t = t0 + (i : Int) * (f * 60000000000) := by
    intro i t h
    have hlt : i < n + 1 := by
      have := (List.getElem?_eq_some_iff.mp h).1
      rw [hidx] at this
      simpa using this
    rw [hget i hlt, Option.some.injEq] at h
    exact ⟨hlt, h.symm⟩
  have hf' : (0 : Int) < f := by omega
  obtain ⟨out, hout⟩ := ((C124_defined minimize (fun t => some (g t)) poa).1).mpr (by
    have hcons : poa.map Prod.fst = t0 :: (poa.map Prod.fst).tail := by
      cases hp : poa.map Prod.fst with
      | nil => have := hget 0 (by omega); rw [hp] at this; simp at this
      | cons a l =>
        have := hget 0 (by omega)
        rw [hp] at this
        simp at this
        simp [this]
    refine ⟨t0, _, hcons, ?_, ?_⟩
    · rw [← hcons, hidx, List.pairwise_map]
      apply List.pairwise_lt_range.imp
      intro a b hab
      have h1 : (a : Int) < b := by exact_mod_cast hab
      have h2 : (0 : Int) < f * 60000000000 := by positivity
      have := mul_lt_mul_of_pos_right h1 h2
      linarith
    · rw [← hcons]
      intro i lo hi hlo hhi
      obtain ⟨h1, rfl⟩ := hget' i lo hlo
      obtain ⟨h2, rfl⟩ := hget' (i + 1) hi hhi
      refine ⟨_, ?_, le_refl _, (i + 1) * f, by push_cast; ring⟩
      push_cast
      have h2 : (0 : Int) < f * 60000000000 := by positivity
      linarith)
  obtain ⟨hk, first, hfirst, hhead, hav⟩ := C124_average hout
  rw [hout, Except.ok.injEq]
  have h0 := hget 0 (by omega)
  have hlen : out.length = n + 1 := by
    have := congrArg List.length (hk.trans hidx)
    simpa using this
  have hft : first = t0 := by
    rw [← List.head?_map, List.head?_eq_getElem?, h0] at hfirst
    simp at hfirst
    exact hfirst.symm
  subst hft
  apply List.ext_getElem?
  intro i
  by_cases hi : i < n + 1
  · rw [List.getElem?_map, List.getElem?_range hi]
    simp only [Option.map_some]
    cases i with
    | zero =>
      rw [← List.head?_eq_getElem?, hhead]
      simp
    | succ i =>
      have e1 := hget i (by omega)
      have e2 := hget (i + 1) hi
      rw [List.getElem?_map] at e1 e2
      obtain ⟨-, v, hv, ms, hnd, -, hms, rfl⟩ := hav i _ _ e1 e2
      rw [hv, if_neg (by omega)]
      have hperm : ms.Perm ((List.range f).map fun j : Nat =>
          first + ((i + 1 : Nat) : Int) * (f * 60000000000) - j * 60000000000) := by
        rw [List.perm_ext_iff_of_nodup hnd (by
          apply List.Nodup.map _ List.nodup_range
          intro x y hxy
          simp only at hxy
          omega)]
        intro m
        rw [hms m]
        simp only [List.mem_map, List.mem_range]
        unfold MinuteOf
        have hN : ((i + 1 : Nat) : Int) * (f * 60000000000) = (i * f : Int) * 60000000000 + f * 60000000000 := by
          push_cast; ring
        have hN' : (i : Int) * (f * 60000000000) = (i * f : Int) * 60000000000 := by ring
        rw [hN, hN']
        have hif : ((i * f : Nat) : Int) = (i : Int) * f := by push_cast; ring
        rw [← hif]
        generalize i * f = N
        constructor
        · rintro ⟨h1, h2, k, rfl⟩
          refine ⟨N + f - k, ?_, ?_⟩
          · omega
          · omega
        · rintro ⟨j, hj, rfl⟩
          refine ⟨by omega, by omega, N + f - j, by omega⟩
      have hfm : (ms.filterMap fun t => some (g t)) = ms.map g := by
        rw [← List.filterMap_eq_map]; rfl
      have hlen : ms.length = f := by simpa using hperm.length_eq
      have hsum : (ms.map g).sum = ((List.range f).map fun j : Nat =>
          g (first + ((i + 1 : Nat) : Int) * (f * 60000000000) - j * 60000000000)).sum := by
        have := (hperm.map g).sum_eq
        rw [List.map_map] at this
        exact this
      have hmean : mean (ms.map g) = some ((ms.map g).sum / f) := by
        cases ms with
        | nil => simp at hlen; omega
        | cons a l =>
          rw [← hlen]
          simp [mean]
      rw [hfm, hmean, hsum]
      rfl
  · rw [List.getElem?_eq_none (by omega), List.getElem?_eq_none (by simp; omega)]

/-- **C124 (times of the caller).** With times of the caller the simulation at these times is stored; rescaling is refused with
ValueError unless they are the index of the measured irradiance. -/
theorem C124_times (minimize : (ℚ → Cell) → Flt → Flt) (sim : Int → Cell) (ts : List Int) (poa : Series) :
    (∃ out, clearskyPoaSeries minimize sim (some ts) false poa = .ok out ∧ out.map Prod.fst = ts ∧
      ∀ r ∈ out, r.2 = Flt.ofCell (sim r.1)) ∧
    (ts ≠ poa.map Prod.fst → clearskyPoaSeries minimize sim (some ts) true poa = .error .valueError) := by
  have hk : (ts.map fun t => (t, sim t)).map Prod.fst = ts := by
    rw [List.map_map]; exact List.map_id'' (fun _ => rfl) ts
  refine ⟨⟨_, rfl, ?_, ?_⟩, fun h => ?_⟩
  · rw [List.map_map]; exact hk
  · intro r hr
    obtain ⟨q, hq, rfl⟩ := List.mem_map.mp hr
    obtain ⟨t, -, rfl⟩ := List.mem_map.mp hq
    rfl
  · unfold clearskyPoaSeries
    simp only [Except.bind, if_true, hk]
    rw [if_pos h]

/-- **C124 (rescaling).** Let the averages `v` be those of C124_average, `g` the ratio of the 90 % quantiles of measurement and
simulation. If the measurement is `k` times the simulation wherever the sky counts as clear, for the ratio `g` and for the factor
`k`, and an optimizer that finds minima is used, the result is `k` times the simulation, whatever was measured under clouds -
unless `g` is within 10⁻⁶ of 1, in which case `g` is used. -/
theorem C124_rescaled {minimize : (ℚ → Cell) → Flt → Flt} (hmin : FindsMinimum minimize) {sim : Int → Cell} {poa : Series}
    {v : List Cell} (hv : clearskyPoaSeries minimize sim none false poa = .ok ((poa.map Prod.fst).zip (v.map Flt.ofCell)))
    (hl : v.length = poa.length) {P Q k : ℚ} (hP : IsQuantile (poa.filterMap Prod.snd) (9 / 10) P)
    (hQ : IsQuantile (v.filterMap id) (9 / 10) Q) (hP0 : 0 < P) (hQ0 : 0 < Q) (hk : 0 < k)
    (hsome : ∃ (i : Nat) (a b : ℚ), (poa[i]?.bind Prod.snd) = some a ∧ (v[i]?.bind id) = some b ∧ ClearRow (P / Q) a b)
    (hall : ∀ (i : Nat) (a b : ℚ), (poa[i]?.bind Prod.snd) = some a → (v[i]?.bind id) = some b →
      ClearRow (P / Q) a b ∨ ClearRow k a b → a = k * b) :
    clearskyPoaSeries minimize sim none true poa =
      .ok ((poa.map Prod.fst).zip (v.map fun c => Flt.ofCell (c.map
        ((if |P / Q - 1| ≤ 1 / 1000000 then P / Q else k) * ·)))) := by
  obtain ⟨w, hw, he⟩ := default_unscaled hv
  have hwl := averaged_length hw
  rw [List.length_map] at hwl
  have hwv : w = v := by
    have h1 : ((poa.map Prod.fst).zip w).map (fun r => (r.1, Flt.ofCell r.2)) =
        (poa.map Prod.fst).zip (w.map Flt.ofCell) := by
      rw [List.zip_map_right]; rfl
    rw [h1] at he
    have h2 := congrArg (List.map Prod.snd) he
    rw [List.map_snd_zip (by simp; omega), List.map_snd_zip (by simp; omega)] at h2
    have hinj : Function.Injective Flt.ofCell := by
      intro a b hab
      cases a <;> cases b <;> simp [Flt.ofCell] at hab ⊢
      exact hab
    exact (List.map_injective_iff.mpr hinj h2).symm
  subst hwv
  have hkeys : (((poa.map Prod.fst).zip w).map Prod.fst) = poa.map Prod.fst :=
    List.map_fst_zip (by simp; omega)
  have hrows : List.zipWith (fun (p : Int × Cell) (c : Int × Cell) => (p.2, c.2)) poa ((poa.map Prod.fst).zip w) =
      (poa.map Prod.snd).zip w := by
    clear hw hv he hP hQ hsome hall hkeys
    induction poa generalizing w with
    | nil => cases w <;> rfl
    | cons p l ih =>
      cases w with
      | nil => rfl
      | cons c w =>
        simp only [List.map_cons, List.zip_cons_cons, List.zipWith_cons_cons]
        rw [ih w (by simpa using hl) (by simpa using hwl)]
  have hf1 : ((poa.map Prod.snd).zip w).filterMap Prod.fst = poa.filterMap Prod.snd := by
    have : ((poa.map Prod.snd).zip w).filterMap Prod.fst = (((poa.map Prod.snd).zip w).map Prod.fst).filterMap id := by
      rw [List.filterMap_map]; rfl
    rw [this, List.map_fst_zip (by simp; omega), List.filterMap_map]; rfl
  have hf2 : ((poa.map Prod.snd).zip w).filterMap Prod.snd = w.filterMap id := by
    have : ((poa.map Prod.snd).zip w).filterMap Prod.snd = (((poa.map Prod.snd).zip w).map Prod.snd).filterMap id := by
      rw [List.filterMap_map]; rfl
    rw [this, List.map_snd_zip (by simp; omega)]
  have hguess : rescaleGuess ((poa.map Prod.snd).zip w) = .ok (.fin (P / Q)) := by
    rw [rescaleGuess_of (by rw [hf1]; exact hP) (by rw [hf2]; exact hQ), Flt.ofDiv, if_neg hQ0.ne']
  have hmem : ∀ a b : ℚ, (some a, some b) ∈ (poa.map Prod.snd).zip w ↔
      ∃ i : Nat, (poa[i]?.bind Prod.snd) = some a ∧ (w[i]?.bind id) = some b := by
    intro a b
    rw [List.mem_iff_getElem?]
    have hb : ∀ i : Nat, (w[i]?.bind id = some b ↔ w[i]? = some (some b)) := by
      intro i; cases w[i]? with
      | none => simp
      | some c => simp
    have ha : ∀ i : Nat, (poa[i]?.bind Prod.snd = some a ↔ (poa.map Prod.snd)[i]? = some (some a)) := by
      intro i; rw [List.getElem?_map]; cases poa[i]? with
      | none => simp
      | some c => simp
    constructor
    · rintro ⟨i, hi⟩
      rw [List.getElem?_zip_eq_some] at hi
      exact ⟨i, (ha i).mpr hi.1, (hb i).mpr hi.2⟩
    · rintro ⟨i, h1, h2⟩
      exact ⟨i, List.getElem?_zip_eq_some.mpr ⟨(ha i).mp h1, (hb i).mp h2⟩⟩
  have hres := rescale_clear hmin (thr := 1 / 1000000) hguess hk (div_pos hP0 hQ0) (by norm_num) (by
    obtain ⟨i, a, b, h1, h2, h3⟩ := hsome
    exact List.ne_nil_of_mem ((mem_clearPairs (p := (a, b))).mpr ⟨(hmem a b).mpr ⟨i, h1, h2⟩, h3⟩)) (by
    intro p hp
    obtain ⟨h1, h2⟩ := mem_clearPairs.mp hp
    obtain ⟨i, h3, h4⟩ := (hmem _ _).mp h1
    exact hall i _ _ h3 h4 (.inl h2)) (by
    intro p hp
    obtain ⟨h1, h2⟩ := mem_clearPairs.mp hp
    obtain ⟨i, h3, h4⟩ := (hmem _ _).mp h1
    exact hall i _ _ h3 h4 (.inr h2)) (n := 100) (by norm_num)
  unfold clearskyPoaSeries
  simp only [hw, Except.map, Except.bind]
  rw [if_pos trivial, if_neg (by rw [hkeys]; simp), hrows]
  norm_cast at hres ⊢
  rw [hres]
  simp only [Except.ok.injEq]
  rw [hkeys]
  congr 1
  generalize (if |P / Q - 1| ≤ (1 : ℚ) / 1000000 then P / Q else k) = F
  have : ((poa.map Prod.snd).zip w).map (fun r => timesCell (.fin F) r.2) =
      (((poa.map Prod.snd).zip w).map Prod.snd).map fun c => timesCell (.fin F) c := by
    rw [List.map_map]; rfl
  rw [this, List.map_snd_zip (by simp; omega)]
  apply List.map_congr_left
  intro c _
  cases c <;> rfl

/-- irradiance rising by 1 W/m² per minute from 400 W/m² -/
def exSim (t : Int) : Cell := some (400 + t / 60000000000)

/-- five-minute data, one cloudy value, 10 % above the simulation elsewhere -/
def exMeasured : Series :=
  [(0, some 0), (300000000000, some (11/10 * 403)), (600000000000, some 120), (900000000000, some (11/10 * 413)),
    (1200000000000, some (11/10 * 418))]

example : (clearskyPoaSeries (fun _ g => g) exSim none false exMeasured).toOption =
    some [(0, .nan), (300000000000, .fin 403), (600000000000, .fin 408), (900000000000, .fin 413),
      (1200000000000, .fin 418)] := by decide +kernel

/-- C124_regular: the timestamps are five minutes apart. -/
example : exMeasured.map Prod.fst = (List.range 5).map fun i : Nat => 0 + (i : Int) * ((5 : Nat) * 60000000000) := by
  decide +kernel

/-- C124_rescaled: quantiles, a clear row, and one factor for all clear rows. -/
example : IsQuantile (exMeasured.filterMap Prod.snd) (9 / 10) (4576/10) ∧
    IsQuantile ([none, some 403, some 408, some 413, some (418 : ℚ)].filterMap id) (9 / 10) (4165/10) := by
  rw [isQuantile_iff (by norm_num) (by norm_num), isQuantile_iff (by norm_num) (by norm_num)]
  decide +kernel

example : ∀ r ∈ List.zip (exMeasured.map Prod.snd) [none, some 403, some 408, some 413, some (418 : ℚ)],
    r = (some 0, none) ∨ r = (some 120, some 408) ∨ ∃ b ∈ [403, 413, 418], r = (some (11/10 * b), some (b : ℚ)) := by
  decide +kernel

example : ClearRow (4576/10 / (4165/10)) (11/10 * 403) 403 ∧ ¬ ClearRow (4576/10 / (4165/10)) 120 408 ∧
    ¬ ClearRow (11/10) 120 408 := by decide +kernel

/-- After an hour without data the value is the average over the whole hour, not over the five minutes that a timestamp stands
for elsewhere. -/
example : (clearskyPoaSeries (fun _ g => g) exSim none false [(0, some 0), (300000000000, some 1), (3900000000000, some 1)]).toOption =
    some [(0, .nan), (300000000000, .fin 403), (3900000000000, .fin (871/2))] := by decide +kernel

/-- Data every half minute cannot be simulated. -/
example : clearskyPoaSeries (fun _ g => g) exSim none false [(0, some 0), (30000000000, some 1), (60000000000, some 1)] =
    .error .valueError := by decide +kernel

end Verif
