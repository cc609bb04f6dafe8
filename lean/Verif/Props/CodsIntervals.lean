import Verif.Props.CodsBootstrap
import Verif.Lemmas.CodsInv
import Verif.Lemmas.CodsConst
import Verif.Props.CodsRatio

/-! # Properties C40 to C43, C73 and C74, continued: rejected fits, intervals, constructor -/

namespace Verif.Cods

open Verif

/-! ## Rejected initial fits -/

/-- bootstrapping only returns a result if all sixteen initial fits succeed and pass the stationarity test, although a majority is
announced to suffice -/
theorem C41_all_refuted {e : BootEnv} {alts : Alternatives} {reps : Nat} {conf : ℚ} {day0 : Int} {pi : List Cell}
    {out : BootOut} (h : runBootstrap e alts reps conf day0 pi = .ok out) (hs : out.small = false) :
    ∃ cs, combos alts = .ok cs ∧ cs.length = 16 ∧ ∀ c ∈ cs, ∃ d, e.fit0 c = .ok d ∧ d.adf.2 < 5 / 100 := by
  obtain ⟨cs, df, s2, hcs, hf⟩ := full_of_ok h hs
  exact ⟨cs, hcs, combos_length hcs, fun c hc => let ⟨d, h1, _, h2⟩ := hf.all c hc; ⟨d, h1, h2⟩⟩

/-- two alternatives are needed for each parameter: with a single one (documented as allowed) there is never a result -/
theorem C41_single_alternative_refuted (e : BootEnv) {alts : Alternatives} (reps : Nat) (conf : ℚ) (day0 : Int) (pi : List Cell)
    (ha : alts.orders.length = 1 ∨ alts.cleaning.length = 1 ∨ alts.pruning.length = 1 ∨ alts.fill.length = 1) :
    ∀ out, runBootstrap e alts reps conf day0 pi ≠ .ok out := by
  intro out h
  unfold runBootstrap at h
  obtain ⟨cs, hcs, -⟩ := bind_ok'.mp h
  have key : ∀ ix ∈ indexList, ∃ c, combo alts ix = .ok c := by
    unfold combos at hcs
    have : ∀ {l : List (Nat × Nat × Nat × Nat)} {r : List Combo}, l.mapM (combo alts) = .ok r → ∀ ix ∈ l, ∃ c, combo alts ix = .ok c := by
      intro l
      induction l with
      | nil => intro r _ ix hx; cases hx
      | cons a l ih =>
        intro r h ix hx
        rw [List.mapM_cons] at h
        obtain ⟨b, hb, h⟩ := bind_ok'.mp h
        obtain ⟨bs, hbs, h⟩ := bind_ok'.mp h
        rcases List.mem_cons.mp hx with rfl | hx
        · exact ⟨b, hb⟩
        · exact ih hbs ix hx
    exact this hcs
  obtain ⟨c, hc⟩ := key (1, 1, 1, 1) (by decide)
  unfold combo at hc
  obtain ⟨o, ho, hc⟩ := bind_ok'.mp hc
  obtain ⟨cl, hcl, hc⟩ := bind_ok'.mp hc
  obtain ⟨p, hp, hc⟩ := bind_ok'.mp hc
  obtain ⟨f, hf, hc⟩ := bind_ok'.mp hc
  have h1 := (List.getElem?_eq_some_iff.mp (getE_ok ho)).1
  have h2 := (List.getElem?_eq_some_iff.mp (getE_ok hcl)).1
  have h3 := (List.getElem?_eq_some_iff.mp (getE_ok hp)).1
  have h4 := (List.getElem?_eq_some_iff.mp (getE_ok hf)).1
  simp only at h1 h2 h3 h4
  omega

/-! ### When all fits are accepted -/

/-- a fit that can be weighted -/
def Spec.Usable (d : Decomp) : Prop := ∃ r, d.rmse = some r ∧ 0 < r

theorem positiveRmse_total : ∀ {fits : List Decomp}, (∀ d ∈ fits, Spec.Usable d) → ∃ rs, positiveRmse fits = some rs
  | [], _ => ⟨[], rfl⟩
  | d :: l, h => by
    obtain ⟨rs, hrs⟩ := positiveRmse_total fun x hx => h x (List.mem_cons_of_mem _ hx)
    obtain ⟨r, hr, h0⟩ := h d (List.mem_cons_self ..)
    exact ⟨r :: rs, by unfold positiveRmse; rw [hr, hrs]; simp only; rw [if_pos h0]⟩

theorem weightsOf_total {fits : List Decomp} (h : ∀ d ∈ fits, Spec.Usable d) : ∃ w, weightsOf fits = .ok w := by
  obtain ⟨rs, hrs⟩ := positiveRmse_total h
  exact ⟨_, by unfold weightsOf; rw [hrs]⟩

/-- the samples of stage 1 when every fit is accepted -/
theorem stage1_fold_all {e : BootEnv} {pi : List Cell} {pm : Nat} : ∀ (cs : List (Nat × Combo)) (s : Stage1),
    (∀ c ∈ cs, ∃ d, e.fit0 c.2 = .ok d ∧ d.adf.2 < 5 / 100) → (∀ c ∈ cs, pm ≤ (e.starts c.1).length) →
    ∃ t, cs.foldlM (stage1Step e pi pm) s = .ok t ∧ t.samples.flatten.length = s.samples.flatten.length + cs.length * pm
  | [], s, _, _ => ⟨s, rfl, by simp⟩
  | c :: cs, s, h, hs => by
    obtain ⟨d, hd, ha⟩ := h c (List.mem_cons_self ..)
    rw [List.foldlM_cons]
    have hl := hs c (List.mem_cons_self ..)
    obtain ⟨u, hu, hul⟩ : ∃ u, stage1Step e pi pm s c = .ok u ∧ u.samples.flatten.length = s.samples.flatten.length + pm := by
      unfold stage1Step
      rw [hd]
      simp only
      rw [if_pos ha]
      simp only [bootstrapSamples]
      refine ⟨_, rfl, ?_⟩
      simp only [List.flatten_append, List.length_append, List.flatten_cons, List.flatten_nil, List.append_nil, List.length_map,
        List.length_take]
      omega
    obtain ⟨t, ht, htl⟩ := stage1_fold_all cs u (fun x hx => h x (List.mem_cons_of_mem _ hx))
      (fun x hx => hs x (List.mem_cons_of_mem _ hx))
    refine ⟨t, by rw [hu]; exact ht, ?_⟩
    rw [htl, hul, List.length_cons, Nat.add_mul]
    omega

/-! ### Rejected initial fits -/

theorem successes_rejected {e : BootEnv} {cs bad : List Combo} (hsub : bad.Sublist cs)
    (hbad : ∀ c ∈ bad, ∃ d, e.fit0 c = .ok d ∧ 5 / 100 ≤ d.adf.2) :
    bad.length ≤ ((successes e cs).map adfZero).count true := by
  induction hsub with
  | slnil => simp
  | @cons l₁ l₂ c _ ih =>
    have := ih hbad
    unfold successes at this ⊢
    rw [List.filterMap_cons]
    cases e.fit0 c with
    | error x => exact this
    | ok d =>
      simp only [List.map_cons, List.count_cons]
      omega
  | @cons_cons l₁ l₂ c _ ih =>
    have := ih fun x hx => hbad x (List.mem_cons_of_mem _ hx)
    obtain ⟨d, hd, ha⟩ := hbad c (List.mem_cons_self ..)
    have hz : adfZero d = true := by unfold adfZero; rw [if_neg (not_lt.mpr ha)]
    unfold successes at this ⊢
    rw [List.filterMap_cons, hd]
    simp only [List.map_cons, List.count_cons, hz, List.length_cons, beq_self_eq_true, if_true]
    omega

/-- whenever there is a result, with or without bootstrapping, at most half of the sixteen initial fits failed the
stationarity test -/
theorem C41_majority {e : BootEnv} {alts : Alternatives} {reps : Nat} {conf : ℚ} {day0 : Int} {pi : List Cell}
    {out : BootOut} (h : runBootstrap e alts reps conf day0 pi = .ok out) {cs bad : List Combo} (hcs : combos alts = .ok cs)
    (hsub : bad.Sublist cs) (hbad : ∀ c ∈ bad, ∃ d, e.fit0 c = .ok d ∧ 5 / 100 ≤ d.adf.2) : bad.length ≤ 8 := by
  have hb := successes_rejected hsub hbad
  unfold runBootstrap at h
  obtain ⟨cs', hcs', h⟩ := bind_ok'.mp h
  rw [hcs] at hcs'
  cases hcs'
  obtain ⟨s1, hs1, h⟩ := bind_ok'.mp h
  obtain ⟨w, hw, h⟩ := bind_ok'.mp h
  obtain ⟨f1, -⟩ := stage1_ok hs1
  by_cases ha : nrModels / 2 < (s1.fits.map adfZero).count true
  · rw [if_pos ha] at h; cases h
  · rw [f1] at ha
    unfold nrModels at ha
    omega

theorem stage1_fold_total {e : BootEnv} {pi : List Cell} {pm : Nat} : ∀ (cs : List (Nat × Combo)) (s : Stage1),
    (∀ c ∈ cs, e.fit0 c.2 = .error .valueError ∨ ∃ d, e.fit0 c.2 = .ok d) → ∃ t, cs.foldlM (stage1Step e pi pm) s = .ok t
  | [], s, _ => ⟨s, rfl⟩
  | c :: cs, s, h => by
    rw [List.foldlM_cons]
    obtain ⟨u, hu⟩ : ∃ u, stage1Step e pi pm s c = .ok u := by
      unfold stage1Step
      rcases h c (List.mem_cons_self ..) with he | ⟨d, hd⟩
      · rw [he]; exact ⟨_, rfl⟩
      · rw [hd]
        simp only
        by_cases ha : d.adf.2 < 5 / 100
        · rw [if_pos ha]; exact ⟨_, rfl⟩
        · rw [if_neg ha]; exact ⟨_, rfl⟩
    obtain ⟨t, ht⟩ := stage1_fold_total cs u fun x hx => h x (List.mem_cons_of_mem _ hx)
    exact ⟨t, by rw [hu]; exact ht⟩

/-- if more than half of the initial fits fail the stationarity test the data is reported as not decomposable -/
theorem C41_not_decomposable {e : BootEnv} {alts : Alternatives} {reps : Nat} {conf : ℚ} {day0 : Int} {pi : List Cell}
    {cs bad : List Combo} (hcs : combos alts = .ok cs)
    (hfit : ∀ c ∈ cs, e.fit0 c = .error .valueError ∨ ∃ d, e.fit0 c = .ok d ∧ Spec.Usable d)
    (hsub : bad.Sublist cs) (hbad : ∀ c ∈ bad, ∃ d, e.fit0 c = .ok d ∧ 5 / 100 ≤ d.adf.2) (hmany : 8 < bad.length) :
    runBootstrap e alts reps conf day0 pi = .error .runtimeError := by
  have hb := successes_rejected hsub hbad
  have hz : ∀ c ∈ (cs.zipIdx.map fun p => (p.2, p.1)), c.2 ∈ cs := by
    intro c hc
    obtain ⟨p, hp, rfl⟩ := List.mem_map.mp hc
    exact (List.mem_zipIdx hp).2.2 ▸ List.getElem_mem _
  obtain ⟨s1, hs1⟩ := stage1_fold_total (e := e) (pi := pi) (pm := roundReps reps / nrModels)
    (cs.zipIdx.map fun p => (p.2, p.1)) ⟨[], []⟩ fun c hc => (hfit _ (hz c hc)).imp_right fun ⟨d, hd, _⟩ => ⟨d, hd⟩
  have hst : stage1 e pi (roundReps reps / nrModels) cs = .ok s1 := hs1
  obtain ⟨f1, -⟩ := stage1_ok hst
  obtain ⟨w, hw⟩ := weightsOf_total (fits := successes e cs) fun d hd => by
    obtain ⟨c, hc, h⟩ := List.mem_filterMap.mp hd
    rcases hfit c hc with he | ⟨d', h1, h2⟩
    · rw [he] at h; cases h
    · rw [h1] at h; cases h; exact h2
  unfold runBootstrap
  rw [hcs]
  show (stage1 e pi (roundReps reps / nrModels) cs >>= _) = _
  rw [hst]
  show (weightsOf s1.fits >>= _) = _
  rw [f1, hw]
  show (if nrModels / 2 < ((successes e cs).map adfZero).count true then _ else _) = _
  rw [if_pos (by unfold nrModels; omega)]

theorem positiveSeasonal_all {fits : List Decomp} {w : List ℚ} (hl : fits.length = 16) (hw : w.length = 16) (hp : ∀ x ∈ w, 0 < x) :
    ∃ scs, positiveSeasonal fits w = .ok scs ∧ scs.length = 16 := by
  have key : ∀ (ms : List Nat) (acc : List (List Cell)), (∀ m ∈ ms, m < 16) →
      ∃ r, ms.foldlM (fun acc m => (do
        let wm ← getE w m
        if 0 < wm then do
          let d ← getE fits m
          .ok (acc ++ [d.seasonal])
        else .ok acc : Except PyErr (List (List Cell)))) acc = .ok r ∧ r.length = acc.length + ms.length := by
    intro ms
    induction ms with
    | nil => intro acc _; exact ⟨acc, rfl, by simp⟩
    | cons m ms ih =>
      intro acc hm
      have h1 := hm m (List.mem_cons_self ..)
      have e1 : getE w m = .ok (w[m]'(by omega)) := by unfold getE; rw [List.getElem?_eq_getElem (by omega)]
      have e2 : getE fits m = .ok (fits[m]'(by omega)) := by unfold getE; rw [List.getElem?_eq_getElem (by omega)]
      obtain ⟨r, hr, hrl⟩ := ih (acc ++ [(fits[m]'(by omega)).seasonal]) fun x hx => hm x (List.mem_cons_of_mem _ hx)
      refine ⟨r, ?_, by rw [hrl]; simp; omega⟩
      rw [List.foldlM_cons, e1, e2]
      show ((if 0 < w[m] then _ else _) >>= _) = _
      rw [if_pos (hp _ (List.getElem_mem _))]
      exact hr
  obtain ⟨r, hr, hl⟩ := key (List.range nrModels) [] fun m hm => by simpa [nrModels] using hm
  exact ⟨r, hr, by rw [hl]; simp [nrModels]⟩

theorem stage2_fold_all {e : BootEnv} {samples seasonal : List (List Cell)}
    (hr : ∀ b x, e.refit b x = .error .valueError ∨ ∃ d, e.refit b x = .ok d ∧ Spec.Usable d ∧ d.soilingLoss.isSome) :
    ∀ (bs : List Nat) (s : Stage2), (∀ b ∈ bs, b < samples.length ∧ b < seasonal.length) →
    (∀ d ∈ s.kdfs, Spec.Usable d ∧ d.soilingLoss.isSome) →
    ∃ t, bs.foldlM (stage2Step e samples seasonal) s = .ok t ∧ (∀ d ∈ t.kdfs, Spec.Usable d ∧ d.soilingLoss.isSome) ∧
      ((s.kdfs ≠ [] ∨ ∃ b ∈ bs, ∀ x, ∃ d, e.refit b x = .ok d ∧ d.adf.2 < 5 / 100) → t.kdfs ≠ [])
  | [], s, _, hs => ⟨s, rfl, hs, fun h => h.elim id fun ⟨b, hb, _⟩ => by cases hb⟩
  | b :: bs, s, hb, hs => by
    obtain ⟨b1, b2⟩ := hb b (List.mem_cons_self ..)
    rw [List.foldlM_cons]
    obtain ⟨u, hu, hus, hne⟩ : ∃ u, stage2Step e samples seasonal s b = .ok u ∧ (∀ d ∈ u.kdfs, Spec.Usable d ∧ d.soilingLoss.isSome) ∧
        ((s.kdfs ≠ [] ∨ ∀ x, ∃ d, e.refit b x = .ok d ∧ d.adf.2 < 5 / 100) → u.kdfs ≠ []) := by
      unfold stage2Step
      rw [List.getElem?_eq_getElem b1, List.getElem?_eq_getElem b2]
      simp only
      rcases hr b (cellsDiv samples[b] seasonal[b]) with he | ⟨d, hd, hu, hl⟩
      · rw [he]
        refine ⟨s, rfl, hs, fun h => h.elim id fun h => ?_⟩
        obtain ⟨d, hd, -⟩ := h (cellsDiv samples[b] seasonal[b])
        rw [he] at hd
        cases hd
      · rw [hd]
        simp only
        by_cases ha : d.adf.2 < 5 / 100
        · rw [if_pos ha]
          refine ⟨_, rfl, fun x hx => ?_, fun _ => by simp⟩
          rcases List.mem_append.mp hx with hx | hx
          · exact hs x hx
          · simp only [List.mem_singleton] at hx
            rw [hx]
            exact ⟨hu, hl⟩
        · rw [if_neg ha]
          refine ⟨s, rfl, hs, fun h => h.elim id fun h => ?_⟩
          obtain ⟨d', hd', ha'⟩ := h (cellsDiv samples[b] seasonal[b])
          rw [hd] at hd'
          cases hd'
          exact absurd ha' ha
    obtain ⟨t, ht, hts, htn⟩ := stage2_fold_all hr bs u (fun x hx => hb x (List.mem_cons_of_mem _ hx)) hus
    refine ⟨t, by rw [hu]; exact ht, hts, fun h => htn ?_⟩
    rcases h with h | ⟨b', hb', h⟩
    · exact .inl (hne (.inl h))
    · rcases List.mem_cons.mp hb' with rfl | hb'
      · exact .inl (hne (.inr h))
      · exact .inr ⟨b', hb', h⟩

theorem seasonalSamples_length (scs : List (List (Int × Cell))) (n : Nat) (draw : Nat → Nat → ℚ × Int) :
    (seasonalSamples scs n draw).length = scs.length * n := by
  unfold seasonalSamples
  rw [List.length_flatMap]
  simp

/-- if all sixteen initial fits are accepted, most of them with a significant signal, every refit fails with `ValueError` at most
and one is accepted, then there is a result -/
theorem C41_ok_partial {e : BootEnv} {alts : Alternatives} {cs : List Combo} {reps : Nat} {conf : ℚ} {day0 : Int} {pi : List Cell}
    (hcs : combos alts = .ok cs)
    (hfit : ∀ c ∈ cs, ∃ d, e.fit0 c = .ok d ∧ d.adf.2 < 5 / 100 ∧ d.adf.1 ≠ 0 ∧ d.small = false ∧ Spec.Usable d)
    (hstarts : ∀ c, roundReps reps / 16 ≤ (e.starts c).length)
    (hrefit : ∀ b x, e.refit b x = .error .valueError ∨ ∃ d, e.refit b x = .ok d ∧ Spec.Usable d ∧ d.soilingLoss.isSome)
    (hone : ∃ b < roundReps reps, ∀ x, ∃ d, e.refit b x = .ok d ∧ d.adf.2 < 5 / 100)
    (hadf : ∀ x, ∃ p, e.adf x = .ok p) (hc0 : 0 ≤ conf) (hc1 : conf ≤ 100) :
    ∃ out, runBootstrap e alts reps conf day0 pi = .ok out ∧ out.small = false := by
  have hlen := combos_length hcs
  have hz : ∀ c ∈ (cs.zipIdx.map fun p => (p.2, p.1)), c.2 ∈ cs := by
    intro c hc
    obtain ⟨p, hp, rfl⟩ := List.mem_map.mp hc
    exact (List.mem_zipIdx hp).2.2 ▸ List.getElem_mem _
  obtain ⟨s1, hs1, hfl⟩ := stage1_fold_all (e := e) (pi := pi) (pm := roundReps reps / nrModels)
    (cs.zipIdx.map fun p => (p.2, p.1)) ⟨[], []⟩
    (fun c hc => let ⟨d, h1, h2, _⟩ := hfit _ (hz c hc); ⟨d, h1, h2⟩) (fun c _ => hstarts c.1)
  have hst : stage1 e pi (roundReps reps / nrModels) cs = .ok s1 := hs1
  obtain ⟨f1, f2, -⟩ := stage1_ok hst
  have hsuc : ∀ d ∈ successes e cs, d.adf.2 < 5 / 100 ∧ d.adf.1 ≠ 0 ∧ d.small = false ∧ Spec.Usable d := by
    intro d hd
    obtain ⟨c, hc, h⟩ := List.mem_filterMap.mp hd
    obtain ⟨d', h1, h2⟩ := hfit c hc
    rw [h1] at h
    cases h
    exact h2
  have hsl : (successes e cs).length = 16 := by
    have : ∀ {l : List Combo}, (∀ c ∈ l, ∃ d, e.fit0 c = .ok d) → (successes e l).length = l.length := by
      intro l
      induction l with
      | nil => intro _; rfl
      | cons c l ih =>
        intro h
        obtain ⟨d, hd⟩ := h c (List.mem_cons_self ..)
        have := ih fun x hx => h x (List.mem_cons_of_mem _ hx)
        have e1 : successes e (c :: l) = d :: successes e l := by simp [successes, hd]
        rw [e1]
        simp [this]
    rw [this fun c hc => let ⟨d, h, _⟩ := hfit c hc; ⟨d, h⟩, hlen]
  have hne : successes e cs ≠ [] := by intro h; rw [h] at hsl; simp at hsl
  obtain ⟨w, hw⟩ := weightsOf_total fun d hd => (hsuc d hd).2.2.2
  obtain ⟨hwl, hwp, -⟩ := weightsOf_dist hw hne
  obtain ⟨b0, hb0, hb0r⟩ := hone
  have hrr := roundReps_mul reps
  have hcnt : ∀ g : Decomp → Bool, (∀ d ∈ successes e cs, g d = false) → ¬ nrModels / 2 < ((successes e cs).map g).count true := by
    intro g hg
    have : ((successes e cs).map g).count true = 0 := by
      rw [List.count_eq_zero]
      intro h
      obtain ⟨d, hd, h⟩ := List.mem_map.mp h
      rw [hg d hd] at h
      cases h
    rw [this]
    simp
  unfold runBootstrap
  rw [hcs]
  show ∃ out, (stage1 e pi (roundReps reps / nrModels) cs >>= _) = _ ∧ _
  rw [hst]
  show ∃ out, (weightsOf s1.fits >>= _) = _ ∧ _
  rw [f1, hw]
  show ∃ out, (if nrModels / 2 < ((successes e cs).map adfZero).count true then _ else _) = _ ∧ _
  rw [if_neg (hcnt adfZero fun d hd => by
    unfold adfZero
    rw [if_pos (hsuc d hd).1]
    simpa using (hsuc d hd).2.1)]
  have hwne : w ≠ [] := by intro h; rw [h] at hwl; simp at hwl; omega
  have hm : argmaxE w = .ok (argmaxQ w) := by unfold argmaxE; rw [if_neg hwne]
  rw [hm]
  show ∃ out, (getE (successes e cs) (argmaxQ w) >>= _) = _ ∧ _
  have hml : argmaxQ w < (successes e cs).length := by
    have := argmaxQ_le w
    have := List.length_pos_iff.mpr hwne
    omega
  have hge : getE (successes e cs) (argmaxQ w) = .ok ((successes e cs)[argmaxQ w]) := by
    unfold getE
    rw [List.getElem?_eq_getElem hml]
  rw [hge]
  show ∃ out, (if nrModels / 2 < ((successes e cs).map fun d => d.small).count true then _ else _) = _ ∧ _
  rw [if_neg (hcnt _ fun d hd => (hsuc d hd).2.2.1)]
  have hsne : s1.samples ≠ [] := by
    intro h
    rw [h] at f2
    have : (successes e cs).filter accepted = successes e cs := by
      rw [List.filter_eq_self]
      intro d hd
      unfold accepted
      simpa using (hsuc d hd).1
    rw [this, hsl] at f2
    simp at f2
  rw [if_neg hsne]
  obtain ⟨scs, hscs, hscl⟩ := positiveSeasonal_all (fits := successes e cs) hsl (by omega) hwp
  rw [hscs]
  show ∃ out, (stage2 e s1.samples.flatten _ (roundReps reps) >>= _) = _ ∧ _
  simp only [List.flatten_nil, List.length_nil, List.length_map, List.length_zipIdx, Nat.zero_add, hlen] at hfl
  obtain ⟨s2, hs2, hk, hkn⟩ := stage2_fold_all (e := e) (samples := s1.samples.flatten)
    (seasonal := (seasonalSamples (scs.map fun c => (daysFrom day0 c.length).zip c) (roundReps reps / nrModels) e.draw).map
        fun l => l.map Prod.snd) hrefit (List.range (roundReps reps)) ⟨[], []⟩ (by
      intro b hb
      have hb := List.mem_range.mp hb
      rw [List.length_map, seasonalSamples_length, List.length_map, hscl, hfl]
      omega) (by intro d hd; cases hd)
  have hs2' : stage2 e s1.samples.flatten
      ((seasonalSamples (scs.map fun c => (daysFrom day0 c.length).zip c) (roundReps reps / nrModels) e.draw).map
        fun l => l.map Prod.snd) (roundReps reps) = .ok s2 := hs2
  rw [hs2']
  show ∃ out, (match (successes e cs).getLast? with | none => Except.error PyErr.exception | some df => stage3 e pi conf df s2) = _ ∧ _
  rw [List.getLast?_eq_some_getLast hne]
  simp only
  have hkne : s2.kdfs ≠ [] := hkn (.inr ⟨b0, List.mem_range.mpr hb0, hb0r⟩)
  obtain ⟨w', hw'⟩ := weightsOf_total fun d hd => (hk d hd).1
  unfold stage3
  rw [if_neg hkne, if_neg (by unfold lowEdge highEdge; push Not; refine ⟨?_, ?_, ?_, ?_⟩ <;> linarith), hw']
  have hall : (s2.kdfs.map fun d => d.soilingLoss).all Option.isSome = true := by
    rw [List.all_map, List.all_eq_true]
    exact fun d hd => (hk d hd).2
  show ∃ out, (if (s2.kdfs.map fun d => d.soilingLoss).all Option.isSome = true then _ else _) = _ ∧ _
  rw [if_pos hall]
  obtain ⟨p, hp⟩ := hadf (cellsDiv pi (cellsMul (cellsMul (linearTrend pi.length (dotQ (s2.kdfs.map fun d => d.degradation) w'))
    ((List.range pi.length).map fun i => some (weightedRow w' (rowAt s2.seasonal i)))) (clip01 ((successes e cs).getLast hne).ratio)))
  show ∃ out, (e.adf _ >>= _) = _ ∧ _
  rw [hp]
  exact ⟨_, rfl, rfl⟩

/-- the number of realizations is the next multiple of sixteen -/
theorem C41_realizations (reps : Nat) : reps ≤ roundReps reps ∧ roundReps reps < reps + 16 ∧ 16 ∣ roundReps reps := by
  unfold roundReps nrModels
  split_ifs with h
  · exact ⟨le_rfl, by omega, by omega⟩
  · exact ⟨by omega, by omega, by omega⟩

/-! ## Intervals -/

/-- lower before upper, if both are there -/
def Spec.Ordered (p : Cell × Cell) : Prop := ∀ a b, p.1 = some a → p.2 = some b → a ≤ b

theorem rowQuantile_ordered {n : Nat} {cols : List (List Cell)} {p q : ℚ} (h0 : 0 ≤ p) (h : p ≤ q) (h1 : q ≤ 1) (i : Nat) :
    Spec.Ordered (cellAt (rowQuantile n cols p) i, cellAt (rowQuantile n cols q) i) := by
  intro a b ha hb
  by_cases hi : i < n
  · simp only at ha hb
    unfold rowQuantile at ha hb
    rw [cellAt_range _ hi] at ha hb
    exact quantile_mono ha hb h0 h h1
  · unfold rowQuantile Verif.cellAt at ha
    simp only at ha
    rw [List.getElem?_eq_none (by simp; omega)] at ha
    cases ha

/-- every interval of a bootstrap with a confidence level from 0 to 100 is ordered: soiling ratio and rate, seasonal component and
model on every day, degradation rate and soiling loss -/
theorem C74_ordered {e : BootEnv} {alts : Alternatives} {reps : Nat} {conf : ℚ} {day0 : Int} {pi : List Cell}
    {out : BootOut} (h : runBootstrap e alts reps conf day0 pi = .ok out) (hs : out.small = false) (hc : 0 ≤ conf) :
    (∀ i, Spec.Ordered (cellAt out.table.srLow i, cellAt out.table.srHigh i)) ∧
    (∀ i, Spec.Ordered (cellAt out.table.ratesLow i, cellAt out.table.ratesHigh i)) ∧
    (∀ i, Spec.Ordered (cellAt out.table.seasonalLow i, cellAt out.table.seasonalHigh i)) ∧
    (∀ i, Spec.Ordered (cellAt out.table.modelLow i, cellAt out.table.modelHigh i)) ∧
    Spec.Ordered out.degradation.2 ∧ Spec.Ordered out.soilingLoss.2 := by
  obtain ⟨cs, df, s2, -, hf⟩ := full_of_ok h hs
  have h3 := hf.final
  have hk := stage3_kdfs h3
  obtain ⟨-, ⟨l0, -, -, l1⟩, -⟩ := stage3_ok h3
  have hle : lowEdge conf ≤ highEdge conf := by unfold lowEdge highEdge; linarith
  unfold stage3 at h3
  rw [if_neg hk] at h3
  by_cases hcf : lowEdge conf < 0 ∨ 1 < lowEdge conf ∨ highEdge conf < 0 ∨ 1 < highEdge conf
  · rw [if_pos hcf] at h3; cases h3
  rw [if_neg hcf] at h3
  obtain ⟨w, hw, h3⟩ := bind_ok'.mp h3
  simp only at h3
  by_cases hall : (s2.kdfs.map fun d => d.soilingLoss).all Option.isSome = true
  swap
  · rw [if_neg hall] at h3; cases h3
  rw [if_pos hall] at h3
  obtain ⟨a, -, h3⟩ := bind_ok'.mp h3
  cases h3
  refine ⟨fun i => rowQuantile_ordered l0 hle l1 i, fun i => rowQuantile_ordered l0 hle l1 i,
    fun i => rowQuantile_ordered l0 hle l1 i, fun i => rowQuantile_ordered l0 hle l1 i,
    fun a b ha hb => quantile_mono ha hb l0 hle l1, fun a b ha hb => ?_⟩
  simp only [lossQuantile, npQuantile, hall, if_true] at ha hb
  exact quantile_mono ha hb l0 hle l1

/-- and they are within the range of the accepted refits -/
theorem C74_range {e : BootEnv} {alts : Alternatives} {reps : Nat} {conf : ℚ} {day0 : Int} {pi : List Cell}
    {out : BootOut} (h : runBootstrap e alts reps conf day0 pi = .ok out) (hs : out.small = false) :
    ∃ refits : List Decomp, refits.length = out.weights.length ∧
      (∀ d ∈ refits, ∃ b < roundReps reps, ∃ x, e.refit b x = .ok d ∧ d.adf.2 < 5 / 100) ∧
      (∀ lo hi, (∀ d ∈ refits, lo ≤ d.degradation ∧ d.degradation ≤ hi) →
        (lo ≤ out.degradation.1 ∧ out.degradation.1 ≤ hi) ∧ ∃ a b, out.degradation.2 = (some a, some b) ∧ lo ≤ a ∧ a ≤ hi ∧ lo ≤ b ∧ b ≤ hi) ∧
      (∀ lo hi, (∀ d ∈ refits, ∃ v, d.soilingLoss = some v ∧ lo ≤ v ∧ v ≤ hi) →
        (lo ≤ out.soilingLoss.1 ∧ out.soilingLoss.1 ≤ hi) ∧ ∃ a b, out.soilingLoss.2 = (some a, some b) ∧ lo ≤ a ∧ a ≤ hi ∧ lo ≤ b ∧ b ≤ hi) := by
  obtain ⟨cs, df, s2, -, hf⟩ := full_of_ok h hs
  have hk := stage3_kdfs hf.final
  obtain ⟨hw, ⟨l0, l0', l1', l1⟩, hsl, -, -, -, -, -, hdeg, hloss, -⟩ := stage3_ok hf.final
  obtain ⟨hl, hp, hsum⟩ := weightsOf_dist hw hk
  have hdot : ∀ (l : List ℚ) (lo hi : ℚ), l.length = out.weights.length → (∀ x ∈ l, lo ≤ x ∧ x ≤ hi) →
      lo ≤ dotQ l out.weights ∧ dotQ l out.weights ≤ hi := by
    intro l lo hi hll hb
    have := weighted_bounds (lo := lo) (hi := hi) (w := out.weights) (row := l.map some) (by simpa using hll) hp (by
      intro c hc
      obtain ⟨x, hx, rfl⟩ := List.mem_map.mp hc
      exact ⟨x, rfl, hb x hx⟩)
    rw [hsum] at this
    have e1 : weightedRow out.weights (l.map some) = dotQ l out.weights := by
      unfold weightedRow dotQ
      rw [List.zipWith_map_left]
      rfl
    rw [e1] at this
    simpa using this
  have hq : ∀ (l : List ℚ) (q lo hi : ℚ), 0 ≤ q → q ≤ 1 → l ≠ [] → (∀ x ∈ l, lo ≤ x ∧ x ≤ hi) →
      ∃ a, quantile l q = some a ∧ lo ≤ a ∧ a ≤ hi := by
    intro l q lo hi h0 h1 hne hb
    have e1 := quantile_some hne q
    exact ⟨_, e1, quantile_ge e1 h0 h1 fun x hx => (hb x hx).1, quantile_le e1 h0 h1 fun x hx => (hb x hx).2⟩
  refine ⟨s2.kdfs, hl.symm, hf.kdfs, fun lo hi hb => ?_, fun lo hi hb => ?_⟩
  · rw [hdeg]
    have hb' : ∀ x ∈ s2.kdfs.map (fun d => d.degradation), lo ≤ x ∧ x ≤ hi := by
      intro x hx
      obtain ⟨d, hd, rfl⟩ := List.mem_map.mp hx
      exact hb d hd
    obtain ⟨a, ha, a1, a2⟩ := hq _ _ _ _ l0 l0' (by simpa using hk) hb'
    obtain ⟨b, hbb, b1, b2⟩ := hq _ _ _ _ l1' l1 (by simpa using hk) hb'
    exact ⟨hdot _ _ _ (by simp [hl]) hb', a, b, by simp only [ha, hbb], a1, a2, b1, b2⟩
  · rw [hloss]
    have hall : (s2.kdfs.map fun d => d.soilingLoss).all Option.isSome = true := by
      rw [List.all_map, List.all_eq_true]
      exact hsl
    have hvl : (valids (s2.kdfs.map fun d => d.soilingLoss)).length = s2.kdfs.length := by
      have : ∀ l : List Decomp, (∀ d ∈ l, d.soilingLoss.isSome) → (valids (l.map fun d => d.soilingLoss)).length = l.length := by
        intro l
        induction l with
        | nil => intro _; rfl
        | cons d l ih =>
          intro h
          obtain ⟨v, hv⟩ := Option.isSome_iff_exists.mp (h d (List.mem_cons_self ..))
          have := ih fun x hx => h x (List.mem_cons_of_mem _ hx)
          simp only [valids, List.map_cons, hv] at this ⊢
          simpa using this
      exact this _ hsl
    have hb' : ∀ x ∈ valids (s2.kdfs.map (fun d => d.soilingLoss)), lo ≤ x ∧ x ≤ hi := by
      intro x hx
      obtain ⟨d, hd, hx⟩ := List.mem_map.mp (mem_valids.mp hx)
      obtain ⟨v, hv, h1⟩ := hb d hd
      rw [hv] at hx
      cases hx
      exact h1
    have hne : valids (s2.kdfs.map fun d => d.soilingLoss) ≠ [] := by
      intro h0
      rw [h0] at hvl
      exact hk (List.length_eq_zero_iff.mp hvl.symm)
    obtain ⟨a, ha, a1, a2⟩ := hq _ _ _ _ l0 l0' hne hb'
    obtain ⟨b, hbb, b1, b2⟩ := hq _ _ _ _ l1' l1 hne hb'
    refine ⟨hdot _ _ _ (by rw [hvl, hl]) hb', a, b, ?_, a1, a2, b1, b2⟩
    simp only [lossQuantile, npQuantile, hall, if_true, ha, hbb]

/-- the interval of the soiling ratio returned by `soiling_cods` after bootstrapping has its upper bound first -/
theorem C43_order_refuted {e : BootEnv} {alts : Alternatives} {reps : Nat} {conf : ℚ} {day0 : Int} {pi : List Cell}
    {out : BootOut} (h : runBootstrap e alts reps conf day0 pi = .ok out) (hs : out.small = false) (hc : 0 ≤ conf)
    {a b : ℚ} (hr : (codsResult out).srCI = (some a, some b)) : b ≤ a := by
  have ho := (C74_ordered h hs hc).2.2.2.2.2
  unfold codsResult at hr
  simp only [Prod.mk.injEq, Option.map_eq_some_iff] at hr
  obtain ⟨⟨x, hx, rfl⟩, y, hy, rfl⟩ := hr
  have := ho x y hx hy
  linarith

/-- read in reverse, it is the interval of the soiling loss -/
theorem C43_consistent_partial (out : BootOut) : 100 * (1 - (codsResult out).sr) = out.soilingLoss.1 ∧
    (codsResult out).srCI.1.map (fun v => 100 * (1 - v)) = out.soilingLoss.2.1 ∧
    (codsResult out).srCI.2.map (fun v => 100 * (1 - v)) = out.soilingLoss.2.2 ∧
    ((codsResult out).rd, (codsResult out).rdCI) = out.degradation := by
  have key : ∀ c : Cell, (c.map fun v => 1 - v / 100).map (fun v => 100 * (1 - v)) = c := by
    intro c
    cases c with
    | none => rfl
    | some v => simp only [Option.map_some]; congr 1; ring
  exact ⟨by show 100 * (1 - (1 - out.soilingLoss.1 / 100)) = _; ring, key _, key _, rfl⟩

/-- for a small signal, the upper end of the loss is the mean loss as a fraction, not as a percentage -/
theorem C43_small_unit_refuted {e : BootEnv} {alts : Alternatives} {reps : Nat} {conf : ℚ} {day0 : Int} {pi : List Cell}
    {out : BootOut} (h : runBootstrap e alts reps conf day0 pi = .ok out) (hs : out.small = true) :
    out.soilingLoss = (0, some 0, some (((out.table.ratio.filterMap id).map fun v : ℚ => 1 - v).sum /
      ((out.table.ratio.filterMap id).length : ℚ))) := by
  obtain ⟨cs, hcs, ⟨w, m, best, hw, hm, hb, hr, -⟩ | ⟨df, s2, hf, -⟩⟩ := runBootstrap_ok h
  · unfold smallResult at hr
    obtain ⟨y, -, hr⟩ := bind_ok'.mp hr
    cases hc : cellMean (best.ratio.map fun c => c.map fun v => 1 - v) with
    | none => rw [hc] at hr; cases hr
    | some v =>
      rw [hc] at hr
      cases hr
      simp only [tableOf]
      have e : valids (best.ratio.map fun c => c.map fun v => 1 - v) = (best.ratio.filterMap id).map fun v => 1 - v := by
        unfold valids
        rw [List.filterMap_map, List.map_filterMap]
        rfl
      unfold cellMean at hc
      rw [e] at hc
      generalize best.ratio.filterMap id = l at hc
      cases l with
      | nil => cases hc
      | cons x l => cases hc; simp
  · obtain ⟨-, -, -, -, -, -, -, -, -, -, hsm⟩ := stage3_ok hf.final
    rw [hsm] at hs
    cases hs

/-! ## Constructor -/

theorem leadingMissing_le (l : List Cell) : leadingMissing l ≤ l.length := by
  induction l with
  | nil => simp [leadingMissing]
  | cons a l ih =>
    cases a with
    | none => simp only [leadingMissing, List.length_cons]; omega
    | some v => simp [leadingMissing]

theorem leadingMissing_spec (l : List Cell) : (∀ c ∈ l.take (leadingMissing l), c = none) ∧
    (leadingMissing l < l.length → ∃ v, l[leadingMissing l]? = some (some v)) := by
  induction l with
  | nil => simp [leadingMissing]
  | cons a l ih =>
    cases a with
    | none =>
      simp only [leadingMissing]
      refine ⟨fun c hc => ?_, fun h => ?_⟩
      · rw [List.take_succ_cons] at hc
        rcases List.mem_cons.mp hc with rfl | hc
        · rfl
        · exact ih.1 c hc
      · rw [List.getElem?_cons_succ]
        exact ih.2 (by simpa using h)
    | some v => simp [leadingMissing]

/-- the stored series is the given one without its leading missing days, each value on its day -/
theorem C73_stored {daily : Bool} {day0 : Int} {pm : List Cell} {r : Int × List Cell} (h : codsInit daily day0 pm = .ok r) :
    ∃ k : Nat, r.1 = day0 + k ∧ r.2 = pm.drop k ∧ (∀ c ∈ pm.take k, c = none) ∧ r.2 ≠ [] ∧
      ((∃ c ∈ pm, c ≠ none) → ∃ v, r.2[0]? = some (some v)) := by
  unfold codsInit at h
  split_ifs at h with h1 h2 h3
  · cases h
    refine ⟨0, by simp, by simp, by simp, h1, fun ⟨c, hc, hn⟩ => ?_⟩
    exact absurd ((leadingMissing_spec pm).1 c (by rw [h3, List.take_length]; exact hc)) hn
  · cases h
    have hlt : leadingMissing pm < pm.length := lt_of_le_of_ne (leadingMissing_le pm) h3
    obtain ⟨hs1, hs2⟩ := leadingMissing_spec pm
    refine ⟨leadingMissing pm, rfl, rfl, hs1, ?_, fun _ => ?_⟩
    · intro h0
      have := congrArg List.length h0
      rw [List.length_drop] at this
      simp at this
      omega
    · obtain ⟨v, hv⟩ := hs2 hlt
      exact ⟨v, by rw [List.getElem?_drop]; simpa using hv⟩

/-- no value is lost -/
theorem C73_no_loss {daily : Bool} {day0 : Int} {pm : List Cell} {r : Int × List Cell} (h : codsInit daily day0 pm = .ok r)
    {i : Nat} {v : ℚ} (hv : cellAt pm i = some v) : ∃ j : Nat, r.1 + j = day0 + i ∧ cellAt r.2 j = some v := by
  obtain ⟨k, h1, h2, h3, -⟩ := C73_stored h
  have hi : pm[i]? = some (some v) := by
    unfold cellAt at hv
    cases hx : pm[i]? with
    | none => rw [hx] at hv; cases hv
    | some c => rw [hx] at hv; exact congrArg some hv
  have hk : k ≤ i := by
    by_contra hc
    push Not at hc
    have : (some v : Cell) ∈ pm.take k := List.mem_iff_getElem?.mpr ⟨i, by rw [List.getElem?_take_of_lt hc]; exact hi⟩
    cases h3 _ this
  refine ⟨i - k, by rw [h1]; push_cast [hk]; ring, ?_⟩
  unfold cellAt
  rw [h2, List.getElem?_drop, show k + (i - k) = i by omega, hi]
  rfl

/-- the only failures: an empty series or one that is not daily -/
theorem C73_errors (daily : Bool) (day0 : Int) (pm : List Cell) :
    (∃ r, codsInit daily day0 pm = .ok r) ↔ (pm ≠ [] ∧ daily = true) := by
  unfold codsInit
  cases daily <;> split_ifs <;> simp_all

/-- a series without daily frequency is refused with `ValueError` -/
theorem C73_frequency (day0 : Int) {pm : List Cell} (h : pm ≠ []) : codsInit false day0 pm = .error .valueError := by
  unfold codsInit
  rw [if_neg h]
  rfl

/-! ## Examples -/

/-- **C43 (soiling_cods).** What `soiling_cods` returns is what the class computes from the series as stored, with loss
turned into ratio. -/
theorem C43_api {e : List Cell → BootEnv} {alts : Alternatives} {reps : Nat} {conf : ℚ} {daily : Bool} {day0 : Int}
    {pm : List Cell} {r : CodsResult} (h : soilingCods e alts reps conf daily day0 pm = .ok r) :
    daily = true ∧ ∃ d l out, codsInit daily day0 pm = .ok (d, l) ∧ runBootstrap (e l) alts reps conf d l = .ok out ∧
      100 * (1 - r.sr) = out.soilingLoss.1 ∧ (r.rd, r.rdCI) = out.degradation ∧
      (out.small = false → 0 ≤ conf → ∀ a b, r.srCI = (some a, some b) → b ≤ a) := by
  unfold soilingCods at h
  obtain ⟨⟨d, l⟩, h1, h⟩ := bind_ok'.mp h
  obtain ⟨out, h2, h⟩ := bind_ok'.mp h
  cases h
  refine ⟨(((C73_errors daily day0 pm)).mp ⟨_, h1⟩).2, d, l, out, h1, h2, (C43_consistent_partial out).1,
    (C43_consistent_partial out).2.2.2, fun hs hc a b hr => C43_order_refuted h2 hs hc hr⟩

theorem init_leading (daily : Bool) (day0 : Int) {pm : List Cell} (hp : ∃ v, some v ∈ pm) (k : Nat) :
    codsInit daily day0 (List.replicate k none ++ pm) = codsInit daily (day0 + k) pm := by
  have hlt : ∀ l : List Cell, (∃ v, some v ∈ l) → leadingMissing l ≠ l.length := by
    intro l
    induction l with
    | nil => rintro ⟨v, hv⟩; cases hv
    | cons a l ih =>
      rintro ⟨v, hv⟩
      cases a with
      | none =>
        have := ih ⟨v, by simpa using hv⟩
        simp only [leadingMissing, List.length_cons]; omega
      | some x => simp [leadingMissing]
  have hne : ∀ l : List Cell, (∃ v, some v ∈ l) → l ≠ [] := by rintro l ⟨v, hv⟩ rfl; cases hv
  have hp' : ∃ v, some v ∈ List.replicate k none ++ pm := by
    obtain ⟨v, hv⟩ := hp; exact ⟨v, List.mem_append_right _ hv⟩
  have hl : leadingMissing (List.replicate k none ++ pm) = k + leadingMissing pm := by
    clear hp'
    induction k with
    | zero => simp
    | succ k ih => rw [List.replicate_succ, List.cons_append, leadingMissing, ih]; omega
  unfold codsInit
  rw [if_neg (hne _ hp'), if_neg (hne _ hp), if_neg (hlt _ hp'), if_neg (hlt _ hp), hl]
  have hd : (List.replicate k none ++ pm).drop (k + leadingMissing pm) = pm.drop (leadingMissing pm) := by
    rw [List.drop_append]; simp
  rw [hd, show day0 + ((k + leadingMissing pm : Nat) : Int) = day0 + k + leadingMissing pm by push_cast; ring]

/-- **C73 (leading gap).** Missing days before the first reading make no difference to `soiling_cods`. -/
theorem C73_leading_gap (e : List Cell → BootEnv) (alts : Alternatives) (reps : Nat) (conf : ℚ) (daily : Bool) (day0 : Int)
    {pm : List Cell} (hp : ∃ v, some v ∈ pm) (k : Nat) :
    soilingCods e alts reps conf daily day0 (List.replicate k none ++ pm) =
      soilingCods e alts reps conf daily (day0 + k) pm := by
  unfold soilingCods
  rw [init_leading daily day0 hp k]

example : codsInit true 100 [none, none, some 1, none, some 2] = .ok (102, [some 1, none, some 2]) := by decide +kernel
example : codsInit true 100 [none, none] = .ok (100, [none, none]) := by decide +kernel
example : codsInit false 100 [some 1] = .error .valueError := by decide +kernel

/-- a fit -/
def exFit (ratio : List Cell) (r p deg loss : ℚ) (small : Bool) : Decomp :=
  { ratio := ratio, rates := [some 0, some (-1 / 10)], events := [false, true], seasonal := [some 1, some 1], trend := [some 1, some 1],
    total := [some 1, some 1], residuals := [some 1, some 1], degradation := deg, soilingLoss := some loss, shift := some 1,
    rmse := some r, small := small, adf := (-5, p), log := [] }

/-- the first combination fits best, with a soiling ratio of one half; `k`: how many are rejected -/
def exBoot (rejected : Combo → Bool) (small : Bool) : BootEnv :=
  { fit0 := fun c =>
      if c = ([.SR, .SC, .Rd], 1 / 4, 2 / 3, true) then .ok (exFit [some (1 / 2), some (1 / 2)] (1 / 100) (1 / 100) 0 50 small)
      else if rejected c then .ok (exFit [some 1, some (9 / 10)] 1 (1 / 2) 0 5 small)
      else .ok (exFit [some 1, some (9 / 10)] 1 (1 / 100) 0 5 small),
    refit := fun b _ => .ok (exFit [some 1, some (9 / 10)] 1 (1 / 100) (-1) (4 + b) small),
    starts := fun _ => [[0]], draw := fun _ _ => (1, 0), yoyCI := fun _ => .ok (-1, -2, 0), adf := fun _ => .ok (-5, 1 / 100), sqrt := id }

/-- the best fit has a soiling ratio of one half; the returned one is that of the last fit -/
theorem C40_best_refuted : (runBootstrap (exBoot (fun _ => false) false) {} 16 95 19000 [some 1, some 1]).map
    (fun o => (o.small, o.table.ratio)) = .ok (false, [some 1, some (9 / 10)]) ∧
    ((exBoot (fun _ => false) false).fit0 ([.SR, .SC, .Rd], 1 / 4, 2 / 3, true)).map (fun d => (d.ratio, d.rmse)) =
      .ok ([some (1 / 2), some (1 / 2)], some (1 / 100)) ∧
    ∀ cs, combos {} = .ok cs → ∀ c ∈ cs, c ≠ ([.SR, .SC, .Rd], 1 / 4, 2 / 3, true) →
      ((exBoot (fun _ => false) false).fit0 c).map (fun d => d.rmse) = .ok (some 1) := by
  refine ⟨by decide +kernel, by decide +kernel, fun cs hcs c hc hne => ?_⟩
  unfold exBoot
  simp only
  rw [if_neg hne]
  rfl

-- with a small signal the best fit is returned
example : (runBootstrap (exBoot (fun _ => false) true) {} 16 95 19000 [some 1, some 1]).map
    (fun o => (o.small, o.table.ratio, o.soilingLoss)) = .ok (true, [some (1 / 2), some (1 / 2)], 0, some 0, some (1 / 2)) := by
  decide +kernel

/-- one of sixteen initial fits fails the test: `KeyError` -/
theorem C41_rejected_refuted : (runBootstrap (exBoot (fun c => c = ([.SC, .SR, .Rd], 3 / 4, 3 / 2, false)) false) {} 16 95 19000
    [some 1, some 1]).map (fun o => o.small) = .error .keyError := by decide +kernel

-- nine rejected fits: not decomposable; eight: `KeyError` in the bootstrap
example : (runBootstrap (exBoot (fun c => c.1 = [.SC, .SR, .Rd] ∨ c = ([.SR, .SC, .Rd], 3 / 4, 2 / 3, true)) false) {} 16 95 19000
    [some 1, some 1]).map (fun o => o.small) = .error .runtimeError := by decide +kernel
example : (runBootstrap (exBoot (fun c => c.1 = [.SC, .SR, .Rd]) false) {} 16 95 19000
    [some 1, some 1]).map (fun o => o.small) = .error .keyError := by decide +kernel
-- eight rejected fits and a small signal: a result
example : (runBootstrap (exBoot (fun c => c.1 = [.SC, .SR, .Rd]) true) {} 16 95 19000
    [some 1, some 1]).map (fun o => o.small) = .ok true := by decide +kernel

-- intervals and the result of `soiling_cods`
example : (runBootstrap (exBoot (fun _ => false) false) {} 10 50 19000 [some 1, some 1]).map
    (fun o => (o.soilingLoss, (codsResult o).srCI, o.weights.length)) =
      .ok ((23 / 2, some (31 / 4), some (61 / 4)), (some (369 / 400), some (339 / 400)), 16) := by decide +kernel
-- the hypotheses of `C41_ok_partial`
example : ∃ out, runBootstrap (exBoot (fun _ => false) false) {} 16 95 19000 [some 1, some 1] = .ok out ∧ out.small = false := by
  have hu : ∀ ratio r p deg loss small, 0 < r → Spec.Usable (exFit ratio r p deg loss small) := fun _ r _ _ _ _ h => ⟨r, rfl, h⟩
  have hcs : ∃ cs, combos {} = .ok cs := by
    cases h : combos {} with
    | ok cs => exact ⟨cs, rfl⟩
    | error e =>
      have : (combos {}).map List.length = .ok 16 := by decide +kernel
      rw [h] at this
      cases this
  obtain ⟨cs, hcs⟩ := hcs
  refine C41_ok_partial hcs (fun c hc => ?_) (fun _ => (by decide : roundReps 16 / 16 ≤ [[0]].length)) (fun b x => .inr ⟨_, rfl, hu _ _ _ _ _ _ (by norm_num), rfl⟩)
    ⟨0, by decide, fun x => ⟨_, rfl, by norm_num [exFit]⟩⟩ (fun x => ⟨_, rfl⟩) (by norm_num) (by norm_num)
  unfold exBoot
  simp only [Bool.false_eq_true, if_false]
  split_ifs
  · exact ⟨_, rfl, by norm_num [exFit], by norm_num [exFit], rfl, hu _ _ _ _ _ _ (by norm_num)⟩
  · exact ⟨_, rfl, by norm_num [exFit], by norm_num [exFit], rfl, hu _ _ _ _ _ _ (by norm_num)⟩

/-- the estimate of the soiling loss need not lie in its interval -/
def exSkew : BootEnv :=
  { exBoot (fun _ => false) false with
    refit := fun b _ => .ok (exFit [some 1, some (9 / 10)] (if b = 0 then 1 / 1000 else 1) (1 / 100) (-1) (if b = 0 then 100 else 1) false) }

/-- the estimate of the soiling loss can lie outside its interval -/
theorem C74_estimate_outside_refuted : (runBootstrap exSkew {} 16 50 19000 [some 1, some 1]).map
    (fun o => (decide (90 < o.soilingLoss.1), o.soilingLoss.2)) = .ok (true, some 1, some 1) := by decide +kernel

/-- a refit without a value on a day counts as a soiling ratio of zero there -/
def exGap : BootEnv :=
  { exBoot (fun _ => false) false with
    refit := fun b _ => .ok (exFit [if b = 0 then none else some 1, some 1] 1 (1 / 100) (-1) 1 false) }

/-- missing values of a refit count as zero: every refit that has a value says 1, the average is below 0.95 -/
theorem C42_missing_refuted : (runBootstrap exGap {} 16 95 19000 [some 1, some 1]).map
    (fun o => (decide (o.table.btRatio.getD 0 0 < 95 / 100), o.table.btRatio.getD 1 0)) = .ok (true, 1) := by decide +kernel

end Verif.Cods
