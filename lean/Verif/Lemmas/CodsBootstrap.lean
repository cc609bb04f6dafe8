import Verif.Model.CodsBootstrap
import Verif.Lemmas.CodsKalman
import Verif.Lemmas.Stats

/-! # Lemmas about the CODS bootstrap -/

namespace Verif.Cods

open Verif

/-! ### Stage 1 -/

/-- the successful fits -/
def successes (e : BootEnv) (cs : List Combo) : List Decomp :=
  cs.filterMap fun c => match e.fit0 c with
    | .ok d => some d
    | .error _ => none

/-- the fit passes the stationarity test -/
def accepted (d : Decomp) : Bool := decide (d.adf.2 < 5 / 100)

theorem stage1Step_ok {e : BootEnv} {pi : List Cell} {pm : Nat} {s t : Stage1} {c : Nat × Combo}
    (h : stage1Step e pi pm s c = .ok t) :
    t.fits = s.fits ++ successes e [c.2] ∧
      t.samples.length = s.samples.length + ((successes e [c.2]).filter accepted).length ∧
      ((∀ l ∈ s.samples, l.length ≤ pm) → ∀ l ∈ t.samples, l.length ≤ pm) := by
  unfold stage1Step at h
  cases hf : e.fit0 c.2 with
  | error err =>
    rw [hf] at h
    have hs : successes e [c.2] = [] := by simp [successes, hf]
    rw [hs]
    cases err <;> simp only at h <;> cases h
    exact ⟨by simp, by simp, id⟩
  | ok d =>
    rw [hf] at h
    have hs : successes e [c.2] = [d] := by simp [successes, hf]
    rw [hs]
    simp only at h
    by_cases ha : d.adf.2 < 5 / 100
    · rw [if_pos ha] at h
      simp only [bootstrapSamples] at h
      cases h
      refine ⟨rfl, by simp [accepted, ha], fun hl l hm => ?_⟩
      rcases List.mem_append.mp hm with h1 | h1
      · exact hl l h1
      · simp only [List.mem_singleton] at h1
        rw [h1]
        simp
    · rw [if_neg ha] at h
      cases h
      exact ⟨rfl, by simp [accepted, ha], id⟩

theorem stage1_fold {e : BootEnv} {pi : List Cell} {pm : Nat} : ∀ (cs : List (Nat × Combo)) {s t : Stage1},
    cs.foldlM (stage1Step e pi pm) s = .ok t → t.fits = s.fits ++ successes e (cs.map Prod.snd) ∧
      t.samples.length = s.samples.length + ((successes e (cs.map Prod.snd)).filter accepted).length ∧
      ((∀ l ∈ s.samples, l.length ≤ pm) → ∀ l ∈ t.samples, l.length ≤ pm)
  | [], s, t, h => by
    cases h
    exact ⟨by simp [successes], by simp [successes], id⟩
  | c :: cs, s, t, h => by
    rw [List.foldlM_cons] at h
    obtain ⟨u, hu, h⟩ := bind_ok'.mp h
    obtain ⟨a1, a2, a3⟩ := stage1Step_ok hu
    obtain ⟨b1, b2, b3⟩ := stage1_fold cs h
    have hc : successes e ((c :: cs).map Prod.snd) = successes e [c.2] ++ successes e (cs.map Prod.snd) := by
      unfold successes
      rw [← List.filterMap_append]
      rfl
    refine ⟨by rw [b1, a1, hc, List.append_assoc], ?_, fun h => b3 (a3 h)⟩
    rw [b2, a2, hc, List.filter_append, List.length_append]
    omega

theorem stage1_ok {e : BootEnv} {pi : List Cell} {pm : Nat} {cs : List Combo} {t : Stage1}
    (h : stage1 e pi pm cs = .ok t) : t.fits = successes e cs ∧
      t.samples.length = ((successes e cs).filter accepted).length ∧ ∀ l ∈ t.samples, l.length ≤ pm := by
  unfold stage1 at h
  obtain ⟨h1, h2, h3⟩ := stage1_fold _ h
  have hm : (cs.zipIdx.map fun p => (p.2, p.1)).map Prod.snd = cs := by
    rw [List.map_map]
    show cs.zipIdx.map (fun p => p.1) = cs
    exact List.zipIdx_map_fst 0 cs
  rw [hm] at h1 h2
  exact ⟨by simpa using h1, by simpa using h2, h3 (by simp)⟩

theorem flatten_length_le {α : Type} {n : Nat} : ∀ {l : List (List α)}, (∀ x ∈ l, x.length ≤ n) → l.flatten.length ≤ l.length * n
  | [], _ => by simp
  | x :: l, h => by
    have h1 := h x (List.mem_cons_self ..)
    have h2 := flatten_length_le fun y hy => h y (List.mem_cons_of_mem _ hy)
    simp only [List.flatten_cons, List.length_append, List.length_cons]
    rw [Nat.add_mul]
    omega

theorem successes_length_le (e : BootEnv) (cs : List Combo) : (successes e cs).length ≤ cs.length :=
  List.length_filterMap_le _ _

theorem successes_all {e : BootEnv} {cs : List Combo} (h : (successes e cs).length = cs.length) :
    ∀ c ∈ cs, ∃ d, e.fit0 c = .ok d ∧ d ∈ successes e cs := by
  induction cs with
  | nil => intro c hc; cases hc
  | cons c cs ih =>
    have hc : successes e (c :: cs) = successes e [c] ++ successes e cs := by
      unfold successes
      rw [← List.filterMap_append]
      rfl
    have h1 := successes_length_le e cs
    have h2 := successes_length_le e [c]
    rw [hc] at h
    simp only [List.length_append, List.length_cons, List.length_nil] at h h2
    intro x hx
    rcases List.mem_cons.mp hx with rfl | hx
    · cases hf : e.fit0 x with
      | error err =>
        have : successes e [x] = [] := by simp [successes, hf]
        rw [this] at h
        simp at h
        omega
      | ok d => exact ⟨d, rfl, by rw [hc]; simp [successes, hf]⟩
    · obtain ⟨d, hd, hm⟩ := ih (by omega) x hx
      exact ⟨d, hd, by rw [hc]; exact List.mem_append_right _ hm⟩

theorem mapM_ok {α β : Type} {f : α → Except PyErr β} : ∀ {l : List α} {r : List β}, l.mapM f = .ok r →
    r.length = l.length ∧ ∀ b ∈ r, ∃ a ∈ l, f a = .ok b
  | [], r, h => by
    rw [List.mapM_nil] at h
    cases h
    exact ⟨rfl, fun b hb => by cases hb⟩
  | a :: l, r, h => by
    rw [List.mapM_cons] at h
    obtain ⟨b, hb, h⟩ := bind_ok'.mp h
    obtain ⟨bs, hbs, h⟩ := bind_ok'.mp h
    cases h
    obtain ⟨h1, h2⟩ := mapM_ok hbs
    refine ⟨by simp [h1], fun x hx => ?_⟩
    rcases List.mem_cons.mp hx with rfl | hx
    · exact ⟨a, List.mem_cons_self .., hb⟩
    · obtain ⟨y, hy, hf⟩ := h2 x hx
      exact ⟨y, List.mem_cons_of_mem _ hy, hf⟩

theorem combos_length {a : Alternatives} {cs : List Combo} (h : combos a = .ok cs) : cs.length = 16 := by
  rw [(mapM_ok h).1]
  rfl

/-! ### Weights -/

theorem positiveRmse_ok : ∀ {fits : List Decomp} {rs : List ℚ}, positiveRmse fits = some rs →
    fits.map (fun d => d.rmse) = rs.map some ∧ ∀ r ∈ rs, 0 < r
  | [], rs, h => by cases h; exact ⟨rfl, fun r hr => by cases hr⟩
  | d :: l, rs, h => by
    unfold positiveRmse at h
    cases hd : d.rmse with
    | none => rw [hd] at h; cases h
    | some r =>
      cases hl : positiveRmse l with
      | none => rw [hd, hl] at h; cases h
      | some rs' =>
        rw [hd, hl] at h
        simp only at h
        split_ifs at h with hr
        cases h
        obtain ⟨h1, h2⟩ := positiveRmse_ok hl
        refine ⟨by simp [hd, h1], fun x hx => ?_⟩
        rcases List.mem_cons.mp hx with rfl | hx
        · exact hr
        · exact h2 x hx

theorem oneFraction_nonneg (d : Decomp) : 0 ≤ oneFraction d := by unfold oneFraction; positivity

/-- one weight before normalization -/
theorem weightsOf_ok {fits : List Decomp} {w : List ℚ} (h : weightsOf fits = .ok w) :
    ∃ raw : List ℚ, w = normalizeW raw ∧ raw.length = fits.length ∧
      (∀ (i : Nat) d, fits[i]? = some d → ∃ r, d.rmse = some r ∧ 0 < r ∧ raw[i]? = some (1 / (r * (1 + oneFraction d)))) ∧
      ∀ x ∈ raw, 0 < x := by
  unfold weightsOf at h
  cases hp : positiveRmse fits with
  | none => rw [hp] at h; cases h
  | some rs =>
    rw [hp] at h
    cases h
    obtain ⟨h1, h2⟩ := positiveRmse_ok hp
    have hl : rs.length = fits.length := by
      have := congrArg List.length h1
      simpa using this.symm
    have key : ∀ (i : Nat) d, fits[i]? = some d → ∃ r, d.rmse = some r ∧ 0 < r ∧
        ((rs.zip (fits.map oneFraction)).map rawWeight)[i]? = some (1 / (r * (1 + oneFraction d))) := by
      intro i d hd
      have hi := (List.getElem?_eq_some_iff.mp hd).1
      have hr : (fits.map fun d => d.rmse)[i]? = some d.rmse := by rw [List.getElem?_map, hd]; rfl
      rw [h1, List.getElem?_map, List.getElem?_eq_getElem (by omega)] at hr
      have hr' : some (rs[i]'(by omega)) = d.rmse := by simpa using hr
      refine ⟨rs[i]'(by omega), hr'.symm, h2 _ (List.getElem_mem _), ?_⟩
      rw [List.getElem?_map, List.getElem?_zip_eq_some (z := (rs[i]'(by omega), oneFraction d)) |>.mpr
        ⟨List.getElem?_eq_getElem _, by rw [List.getElem?_map, hd]; rfl⟩]
      simp only [Option.map_some, rawWeight]
      rw [div_div]
    have hlen : ((rs.zip (fits.map oneFraction)).map rawWeight).length = fits.length := by simp [hl]
    refine ⟨_, rfl, hlen, key, ?_⟩
    intro x hx
    obtain ⟨i, hi, rfl⟩ := List.mem_iff_getElem.mp hx
    obtain ⟨r, -, hr, he⟩ := key i _ (List.getElem?_eq_getElem (by omega))
    rw [List.getElem?_eq_getElem hi] at he
    have he := Option.some.inj he
    rw [he]
    have := oneFraction_nonneg (fits[i]'(by omega))
    positivity

theorem sum_pos' {l : List ℚ} (hne : l ≠ []) (h : ∀ x ∈ l, 0 < x) : 0 < l.sum := by
  induction l with
  | nil => exact absurd rfl hne
  | cons a l ih =>
    have ha := h a (List.mem_cons_self ..)
    rw [List.sum_cons]
    by_cases hl : l = []
    · rw [hl]; simpa using ha
    · have := ih hl fun x hx => h x (List.mem_cons_of_mem _ hx)
      linarith

theorem normalizeW_sum {l : List ℚ} (h : l.sum ≠ 0) : (normalizeW l).sum = 1 := by
  have : ∀ (s : ℚ) (l : List ℚ), (l.map fun w => w / s).sum = l.sum / s := by
    intro s l
    induction l with
    | nil => simp
    | cons a l ih => simp [ih, add_div]
  unfold normalizeW
  rw [this, div_self h]

/-! ### Stage 2 -/

theorem stage2Step_ok {e : BootEnv} {samples seasonal : List (List Cell)} {s t : Stage2} {b : Nat}
    (h : stage2Step e samples seasonal s b = .ok t) : b < samples.length ∧
      ((t = s) ∨ ∃ x d, e.refit b x = .ok d ∧ d.adf.2 < 5 / 100 ∧ t.kdfs = s.kdfs ++ [d] ∧ t.seasonal.length = s.seasonal.length + 1) := by
  unfold stage2Step at h
  cases hx : samples[b]? with
  | none => rw [hx] at h; cases h
  | some x =>
    cases hy : seasonal[b]? with
    | none => rw [hx, hy] at h; cases h
    | some y =>
      rw [hx, hy] at h
      refine ⟨(List.getElem?_eq_some_iff.mp hx).1, ?_⟩
      simp only at h
      cases hr : e.refit b (cellsDiv x y) with
      | error err =>
        rw [hr] at h
        cases err <;> simp only at h <;> cases h
        exact .inl rfl
      | ok d =>
        rw [hr] at h
        simp only at h
        by_cases ha : d.adf.2 < 5 / 100
        · rw [if_pos ha] at h
          cases h
          exact .inr ⟨_, d, hr, ha, rfl, by simp⟩
        · rw [if_neg ha] at h
          cases h
          exact .inl rfl

theorem stage2_fold {e : BootEnv} {samples seasonal : List (List Cell)} : ∀ (bs : List Nat) {s t : Stage2},
    bs.foldlM (stage2Step e samples seasonal) s = .ok t → (∀ b ∈ bs, b < samples.length) ∧
      (s.kdfs.length = s.seasonal.length → t.kdfs.length = t.seasonal.length) ∧
      ∀ d ∈ t.kdfs, d ∈ s.kdfs ∨ ∃ b ∈ bs, ∃ x, e.refit b x = .ok d ∧ d.adf.2 < 5 / 100
  | [], s, t, h => by
    cases h
    exact ⟨fun b hb => (by cases hb), id, fun d hd => .inl hd⟩
  | b :: bs, s, t, h => by
    rw [List.foldlM_cons] at h
    obtain ⟨u, hu, h⟩ := bind_ok'.mp h
    obtain ⟨a1, a2⟩ := stage2Step_ok hu
    obtain ⟨b1, b2, b3⟩ := stage2_fold bs h
    refine ⟨fun x hx => ?_, fun hl => b2 ?_, fun d hd => ?_⟩
    · rcases List.mem_cons.mp hx with rfl | hx
      · exact a1
      · exact b1 x hx
    · rcases a2 with rfl | ⟨x, d, -, -, h1, h2⟩
      · exact hl
      · rw [h1, h2]; simp [hl]
    · rcases b3 d hd with hm | ⟨b', hb', x, hx⟩
      · rcases a2 with rfl | ⟨x, d', h1, h2, h3, -⟩
        · exact .inl hm
        · rw [h3] at hm
          rcases List.mem_append.mp hm with hm | hm
          · exact .inl hm
          · simp only [List.mem_singleton] at hm
            subst hm
            exact .inr ⟨b, List.mem_cons_self .., x, h1, h2⟩
      · exact .inr ⟨b', List.mem_cons_of_mem _ hb', x, hx⟩

theorem roundReps_mul (reps : Nat) : roundReps reps = 16 * (roundReps reps / nrModels) := by
  unfold roundReps nrModels
  split_ifs with h <;> omega

theorem getE_ok {α : Type} {l : List α} {i : Nat} {a : α} (h : getE l i = .ok a) : l[i]? = some a := by
  unfold getE at h
  cases hx : l[i]? with
  | none => rw [hx] at h; cases h
  | some b => rw [hx] at h; cases h; rfl

theorem positiveSeasonal_ok {fits : List Decomp} {w : List ℚ} {r : List (List Cell)} (h : positiveSeasonal fits w = .ok r) :
    16 ≤ w.length := by
  have key : ∀ (ms : List Nat) (acc : List (List Cell)) {r : List (List Cell)},
      ms.foldlM (fun acc m => (do
        let wm ← getE w m
        if 0 < wm then do
          let d ← getE fits m
          .ok (acc ++ [d.seasonal])
        else .ok acc : Except PyErr (List (List Cell)))) acc = .ok r → ∀ m ∈ ms, m < w.length := by
    intro ms
    induction ms with
    | nil => intro acc r _ m hm; cases hm
    | cons m ms ih =>
      intro acc r h x hx
      rw [List.foldlM_cons] at h
      obtain ⟨u, hu, h⟩ := bind_ok'.mp h
      obtain ⟨wm, hw, -⟩ := bind_ok'.mp hu
      rcases List.mem_cons.mp hx with rfl | hx
      · exact (List.getElem?_eq_some_iff.mp (getE_ok hw)).1
      · exact ih u h x hx
  have := key (List.range nrModels) [] h 15 (by simp [nrModels])
  omega

/-! ### The whole call -/

/-- what a successful call with bootstrapping has gone through -/
structure FullRun (e : BootEnv) (reps : Nat) (conf : ℚ) (pi : List Cell) (out : BootOut) (cs : List Combo) (df : Decomp)
    (s2 : Stage2) : Prop where
  all : ∀ c ∈ cs, ∃ d, e.fit0 c = .ok d ∧ d ∈ successes e cs ∧ d.adf.2 < 5 / 100
  last : (successes e cs).getLast? = some df
  kdfs : ∀ d ∈ s2.kdfs, ∃ b < roundReps reps, ∃ x, e.refit b x = .ok d ∧ d.adf.2 < 5 / 100
  seasonal : s2.kdfs.length = s2.seasonal.length
  final : stage3 e pi conf df s2 = .ok out

theorem stage3_kdfs {e : BootEnv} {conf : ℚ} {pi : List Cell} {df : Decomp} {s2 : Stage2} {out : BootOut}
    (h : stage3 e pi conf df s2 = .ok out) : s2.kdfs ≠ [] := by
  intro hk
  unfold stage3 at h
  rw [if_pos hk] at h
  cases h

/-- a successful call either stops with a small signal and the best fit, or runs through everything -/
theorem runBootstrap_ok {e : BootEnv} {alts : Alternatives} {reps : Nat} {conf : ℚ} {day0 : Int} {pi : List Cell}
    {out : BootOut} (h : runBootstrap e alts reps conf day0 pi = .ok out) :
    ∃ cs, combos alts = .ok cs ∧
      ((∃ w m best, weightsOf (successes e cs) = .ok w ∧ argmaxE w = .ok m ∧ (successes e cs)[m]? = some best ∧
        smallResult e pi best w = .ok out ∧ 8 < ((successes e cs).map fun d => d.small).count true) ∨
      ∃ df s2, FullRun e reps conf pi out cs df s2 ∧ ((successes e cs).map fun d => d.small).count true ≤ 8) := by
  unfold runBootstrap at h
  obtain ⟨cs, hcs, h⟩ := bind_ok'.mp h
  obtain ⟨s1, hs1, h⟩ := bind_ok'.mp h
  obtain ⟨w, hw, h⟩ := bind_ok'.mp h
  obtain ⟨f1, f2, f3⟩ := stage1_ok hs1
  by_cases ha : nrModels / 2 < (s1.fits.map adfZero).count true
  · rw [if_pos ha] at h; cases h
  · rw [if_neg ha] at h
    obtain ⟨m, hm, h⟩ := bind_ok'.mp h
    obtain ⟨best, hb, h⟩ := bind_ok'.mp h
    refine ⟨cs, hcs, ?_⟩
    by_cases hsm : nrModels / 2 < (s1.fits.map fun d => d.small).count true
    · rw [if_pos hsm] at h
      rw [f1] at hw hb hsm
      exact .inl ⟨w, m, best, hw, hm, getE_ok hb, h, hsm⟩
    · rw [if_neg hsm] at h
      by_cases hse : s1.samples = []
      · rw [if_pos hse] at h; cases h
      · rw [if_neg hse] at h
        obtain ⟨scs, hscs, h⟩ := bind_ok'.mp h
        obtain ⟨s2, hs2, h⟩ := bind_ok'.mp h
        have hlen : 16 ≤ s1.fits.length := by
          have := positiveSeasonal_ok hscs
          obtain ⟨raw, rfl, hl, -⟩ := weightsOf_ok hw
          unfold normalizeW at this
          rw [List.length_map] at this
          omega
        unfold stage2 at hs2
        obtain ⟨g1, g2, g3⟩ := stage2_fold _ hs2
        cases hl : s1.fits.getLast? with
        | none => rw [hl] at h; cases h
        | some df =>
          rw [hl] at h
          simp only at h
          refine .inr ⟨df, s2, ⟨?_, by rw [← f1]; exact hl, ?_, g2 rfl, h⟩, by rw [f1] at hsm; unfold nrModels at hsm; omega⟩
          · have hle := successes_length_le e cs
            rw [combos_length hcs] at hle
            rw [f1] at hlen
            have hfull : (successes e cs).length = cs.length := by rw [combos_length hcs]; omega
            have hkd : s2.kdfs ≠ [] := stage3_kdfs h
            -- the number of samples
            have hr := roundReps_mul reps
            obtain ⟨d0, hd0⟩ := List.exists_mem_of_ne_nil _ hkd
            have hpos : 0 < roundReps reps := by
              rcases g3 d0 hd0 with hm0 | ⟨b, hb0, -⟩
              · cases hm0
              · have := List.mem_range.mp hb0; omega
            have hlast := g1 (roundReps reps - 1) (List.mem_range.mpr (by omega))
            have hfl := flatten_length_le f3
            rw [f2] at hfl
            have hcount : 16 ≤ ((successes e cs).filter accepted).length := by
              by_contra hcon
              generalize hK : ((successes e cs).filter accepted).length = K at *
              generalize hP : roundReps reps / nrModels = P at *
              have h1 : K * P ≤ 15 * P := Nat.mul_le_mul_right _ (by omega)
              omega
            have hall : ∀ d ∈ successes e cs, accepted d = true := by
              have hle2 := List.length_filter_le accepted (successes e cs)
              have : ((successes e cs).filter accepted).length = (successes e cs).length := by omega
              exact List.length_filter_eq_length_iff.mp this
            intro c hc
            obtain ⟨d, hd, hmem⟩ := successes_all hfull c hc
            refine ⟨d, hd, hmem, ?_⟩
            have := hall d hmem
            unfold accepted at this
            simpa using this
          · intro d hd
            rcases g3 d hd with hm0 | ⟨b, hb0, x, hx⟩
            · cases hm0
            · exact ⟨b, List.mem_range.mp hb0, x, hx⟩

end Verif.Cods
