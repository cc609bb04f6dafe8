import Verif.Lemmas.CodsBootstrap

/-! # Lemmas about the stages of the CODS bootstrap: which series are refitted, and which refits are used -/

namespace Verif.Cods

open Verif

/-- an entry of a concatenation of lists of the same length -/
theorem flatten_uniform {α : Type} {P : Nat} : ∀ {l : List (List α)}, (∀ x ∈ l, x.length = P) → ∀ k j, j < P →
    l.flatten[k * P + j]? = (l[k]?).bind fun x => x[j]?
  | [], _, k, j, _ => by simp
  | a :: l, h, 0, j, hj => by
    have ha := h a (List.mem_cons_self ..)
    rw [List.flatten_cons, List.getElem?_append_left (by omega)]
    simp
  | a :: l, h, k + 1, j, hj => by
    have ha := h a (List.mem_cons_self ..)
    have ih := flatten_uniform (fun x hx => h x (List.mem_cons_of_mem _ hx)) k j hj
    rw [List.flatten_cons, List.getElem?_append_right (by rw [ha, Nat.add_mul]; omega), List.getElem?_cons_succ, ← ih]
    congr 1
    rw [ha, Nat.add_mul]
    omega

/-- lists that are not longer than `P` and reach the largest total length have length `P` -/
theorem lengths_full {α : Type} {P : Nat} : ∀ {l : List (List α)}, (∀ x ∈ l, x.length ≤ P) →
    l.length * P ≤ l.flatten.length → ∀ x ∈ l, x.length = P
  | [], _, _, x, hx => by cases hx
  | a :: l, h, ht, x, hx => by
    have ha := h a (List.mem_cons_self ..)
    have hl := flatten_length_le fun y hy => h y (List.mem_cons_of_mem _ hy)
    rw [List.flatten_cons, List.length_append, List.length_cons, Nat.add_mul] at ht
    rcases List.mem_cons.mp hx with rfl | hx
    · omega
    · exact lengths_full (fun y hy => h y (List.mem_cons_of_mem _ hy)) (by omega) x hx

/-! ### Stage 1 -/

/-- the bootstrap sample with given block starts -/
def sampleOf (pi model : List Cell) (st : List Nat) : List Cell :=
  List.zipWith (recombineAt true) model
    ((blockIndices pi.length 90 st).map fun i => ((List.zipWith (residualAt true) pi model)[i]?).join)

theorem bootstrapSamples_eq (pi model : List Cell) (l : List (List Nat)) :
    bootstrapSamples .multiplicative pi model 90 l = .ok (l.map (sampleOf pi model)) := rfl

/-- the bootstrap samples of one initial fit -/
def samplesOf (e : BootEnv) (pi : List Cell) (pm : Nat) (c : Nat × Combo) : Option (List (List Cell)) :=
  match e.fit0 c.2 with
  | .error _ => none
  | .ok d => if d.adf.2 < 5 / 100 then some (((e.starts c.1).take pm).map (sampleOf pi d.total)) else none

theorem stage1Step_samples {e : BootEnv} {pi : List Cell} {pm : Nat} {s t : Stage1} {c : Nat × Combo}
    (h : stage1Step e pi pm s c = .ok t) : t.samples = s.samples ++ (samplesOf e pi pm c).toList := by
  unfold stage1Step at h
  unfold samplesOf
  cases hf : e.fit0 c.2 with
  | error err =>
    rw [hf] at h
    cases err <;> simp only at h <;> cases h
    simp
  | ok d =>
    rw [hf] at h
    simp only at h ⊢
    by_cases ha : d.adf.2 < 5 / 100
    · rw [if_pos ha, bootstrapSamples_eq] at h
      cases h
      rw [if_pos ha]
      simp
    · rw [if_neg ha] at h
      cases h
      rw [if_neg ha]
      simp

theorem stage1_samples {e : BootEnv} {pi : List Cell} {pm : Nat} : ∀ (cs : List (Nat × Combo)) {s t : Stage1},
    cs.foldlM (stage1Step e pi pm) s = .ok t → t.samples = s.samples ++ cs.filterMap (samplesOf e pi pm)
  | [], s, t, h => by cases h; simp
  | c :: cs, s, t, h => by
    rw [List.foldlM_cons] at h
    obtain ⟨u, hu, h⟩ := bind_ok'.mp h
    rw [stage1_samples cs h, stage1Step_samples hu, List.append_assoc, List.filterMap_cons]
    cases samplesOf e pi pm c <;> simp

/-- if all fits are accepted, the samples of fit `k` are at place `k` -/
theorem stage1_at {e : BootEnv} {pi : List Cell} {pm : Nat} {cs : List Combo} {t : Stage1} (h : stage1 e pi pm cs = .ok t)
    (hall : ∀ c ∈ cs, ∃ d, e.fit0 c = .ok d ∧ d.adf.2 < 5 / 100) {k : Nat} {c : Combo} {d : Decomp} (hc : cs[k]? = some c)
    (hd : e.fit0 c = .ok d) : t.samples[k]? = some (((e.starts k).take pm).map (sampleOf pi d.total)) := by
  have h1 := stage1_samples _ h
  have h2 : ((cs.zipIdx.map fun p => (p.2, p.1)).filterMap (samplesOf e pi pm)).map some =
      (cs.zipIdx.map fun p => (p.2, p.1)).map (samplesOf e pi pm) := by
    have key : ∀ l : List (Nat × Combo), (∀ p ∈ l, (samplesOf e pi pm p).isSome) →
        (l.filterMap (samplesOf e pi pm)).map some = l.map (samplesOf e pi pm) := by
      intro l
      induction l with
      | nil => intro _; rfl
      | cons p l ih =>
        intro hl
        obtain ⟨v, hv⟩ := Option.isSome_iff_exists.mp (hl p (List.mem_cons_self ..))
        rw [List.filterMap_cons, hv]
        simp only [List.map_cons, hv]
        rw [ih fun q hq => hl q (List.mem_cons_of_mem _ hq)]
    apply key
    intro p hp
    obtain ⟨q, hq, rfl⟩ := List.mem_map.mp hp
    have : q.1 ∈ cs := by
      have := List.mem_map_of_mem (f := Prod.fst) hq
      rwa [List.zipIdx_map_fst] at this
    obtain ⟨d, hd, ha⟩ := hall _ this
    unfold samplesOf
    rw [hd]
    simp only
    rw [if_pos ha]
    rfl
  have h3 := congrArg (fun l => l[k]?) h2
  simp only [List.getElem?_map, List.getElem?_zipIdx, hc, Option.map_some] at h3
  have hs : t.samples = (cs.zipIdx.map fun p => (p.2, p.1)).filterMap (samplesOf e pi pm) := by simpa using h1
  rw [← hs] at h3
  have ha : d.adf.2 < 5 / 100 := by
    obtain ⟨d', hd', ha⟩ := hall c (List.mem_of_getElem? hc)
    rw [hd] at hd'
    cases hd'
    exact ha
  have he : samplesOf e pi pm (0 + k, c) = some (((e.starts k).take pm).map (sampleOf pi d.total)) := by
    unfold samplesOf
    rw [hd]
    simp only
    rw [if_pos ha]
    simp
  rw [he] at h3
  cases hx : t.samples[k]? with
  | none => rw [hx] at h3; cases h3
  | some y =>
    rw [hx] at h3
    simpa using h3

/-! ### Seasonal samples -/

theorem positiveSeasonal_at {fits : List Decomp} {w : List ℚ} {r : List (List Cell)} (h : positiveSeasonal fits w = .ok r)
    (hw : ∀ x ∈ w, 0 < x) : ∀ k < 16, r[k]? = (fits[k]?).map fun d => d.seasonal := by
  have key : ∀ (ms : List Nat) (acc : List (List Cell)) {r : List (List Cell)},
      ms.foldlM (fun acc m => (do
        let wm ← getE w m
        if 0 < wm then do
          let d ← getE fits m
          .ok (acc ++ [d.seasonal])
        else .ok acc : Except PyErr (List (List Cell)))) acc = .ok r →
      ∃ new, r = acc ++ new ∧ new.map some = ms.map fun m => (fits[m]?).map fun d => d.seasonal := by
    intro ms
    induction ms with
    | nil => intro acc r h; cases h; exact ⟨[], by simp, rfl⟩
    | cons m ms ih =>
      intro acc r h
      rw [List.foldlM_cons] at h
      obtain ⟨u, hu, h⟩ := bind_ok'.mp h
      obtain ⟨wm, hwm, hu⟩ := bind_ok'.mp hu
      rw [if_pos (hw wm (List.mem_of_getElem? (getE_ok hwm)))] at hu
      obtain ⟨d, hd, hu⟩ := bind_ok'.mp hu
      cases hu
      obtain ⟨new, rfl, hn⟩ := ih _ h
      refine ⟨d.seasonal :: new, by simp, ?_⟩
      simp only [List.map_cons, hn, getE_ok hd, Option.map_some]
  obtain ⟨new, hr, hn⟩ := key (List.range nrModels) [] h
  obtain rfl : r = new := by simpa using hr
  intro k hk
  have := congrArg (fun l => l[k]?) hn
  simp only [List.getElem?_map, List.getElem?_range (show k < nrModels from hk), Option.map_some] at this
  cases hx : r[k]? with
  | none => rw [hx] at this; cases this
  | some y =>
    rw [hx] at this
    simpa using this

theorem seasonalSamples_at (scs : List (List (Int × Cell))) (P : Nat) (draw : Nat → Nat → ℚ × Int) {k j : Nat} (hj : j < P)
    {s : List (Int × Cell)} (hs : scs[k]? = some s) :
    (seasonalSamples scs P draw)[k * P + j]? = some (seasonalSample s (draw k j).1 (draw k j).2) := by
  unfold seasonalSamples
  rw [List.flatMap_def, flatten_uniform (P := P) (fun x hx => ?_) k j hj, List.getElem?_map, List.getElem?_zipIdx, hs]
  · simp [List.getElem?_range hj]
  · obtain ⟨p, -, rfl⟩ := List.mem_map.mp hx
    simp

/-! ### Stage 2 -/

/-- the refit that is kept: one that succeeds and passes the stationarity test -/
def Spec.counted : Except PyErr Decomp → Option Decomp
  | .error _ => none
  | .ok d => if d.adf.2 < 5 / 100 then some d else none

/-- the series refitted in realization `b` -/
def refitted (samples seasonal : List (List Cell)) (b : Nat) : List Cell :=
  cellsDiv (samples.getD b []) (seasonal.getD b [])

theorem stage2Step_exact {e : BootEnv} {samples seasonal : List (List Cell)} {s t : Stage2} {b : Nat}
    (h : stage2Step e samples seasonal s b = .ok t) : b < seasonal.length ∧
      ((∃ d, e.refit b (refitted samples seasonal b) = .ok d) ∨
        e.refit b (refitted samples seasonal b) = .error .valueError) ∧
      t.kdfs = s.kdfs ++ (Spec.counted (e.refit b (refitted samples seasonal b))).toList ∧
      t.seasonal = s.seasonal ++ ((Spec.counted (e.refit b (refitted samples seasonal b))).map fun _ => seasonal.getD b []).toList := by
  unfold stage2Step at h
  cases hx : samples[b]? with
  | none => rw [hx] at h; cases h
  | some x =>
    cases hy : seasonal[b]? with
    | none => rw [hx, hy] at h; cases h
    | some y =>
      rw [hx, hy] at h
      simp only at h
      have e1 : refitted samples seasonal b = cellsDiv x y := by
        unfold refitted
        rw [List.getD_eq_getElem?_getD, List.getD_eq_getElem?_getD, hx, hy]
        rfl
      have e2 : seasonal.getD b [] = y := by rw [List.getD_eq_getElem?_getD, hy]; rfl
      rw [e1, e2]
      refine ⟨(List.getElem?_eq_some_iff.mp hy).1, ?_⟩
      cases hr : e.refit b (cellsDiv x y) with
      | error err =>
        rw [hr] at h
        cases err <;> simp only at h <;> cases h
        exact ⟨.inr rfl, by simp [Spec.counted], by simp [Spec.counted]⟩
      | ok d =>
        rw [hr] at h
        simp only at h
        refine ⟨.inl ⟨d, rfl⟩, ?_⟩
        unfold Spec.counted
        by_cases ha : d.adf.2 < 5 / 100
        · rw [if_pos ha] at h
          cases h
          simp only [if_pos ha]
          exact ⟨by simp, by simp⟩
        · rw [if_neg ha] at h
          cases h
          simp only [if_neg ha]
          exact ⟨by simp, by simp⟩

theorem stage2_exact {e : BootEnv} {samples seasonal : List (List Cell)} : ∀ (bs : List Nat) {s t : Stage2},
    bs.foldlM (stage2Step e samples seasonal) s = .ok t →
      (∀ b ∈ bs, b < samples.length ∧ b < seasonal.length ∧ ((∃ d, e.refit b (refitted samples seasonal b) = .ok d) ∨
        e.refit b (refitted samples seasonal b) = .error .valueError)) ∧
      t.kdfs = s.kdfs ++ bs.filterMap (fun b => Spec.counted (e.refit b (refitted samples seasonal b))) ∧
      t.seasonal = s.seasonal ++
        bs.filterMap fun b => (Spec.counted (e.refit b (refitted samples seasonal b))).map fun _ => seasonal.getD b []
  | [], s, t, h => by
    cases h
    exact ⟨fun b hb => (by cases hb), by simp, by simp⟩
  | b :: bs, s, t, h => by
    rw [List.foldlM_cons] at h
    obtain ⟨u, hu, h⟩ := bind_ok'.mp h
    obtain ⟨a0, -⟩ := stage2Step_ok hu
    obtain ⟨a1, a2, a3, a4⟩ := stage2Step_exact hu
    obtain ⟨b1, b2, b3⟩ := stage2_exact bs h
    refine ⟨fun x hx => ?_, ?_, ?_⟩
    · rcases List.mem_cons.mp hx with rfl | hx
      · exact ⟨a0, a1, a2⟩
      · exact b1 x hx
    · rw [b2, a3, List.append_assoc, List.filterMap_cons]
      cases Spec.counted (e.refit b (refitted samples seasonal b)) <;> simp
    · rw [b3, a4, List.append_assoc, List.filterMap_cons]
      cases Spec.counted (e.refit b (refitted samples seasonal b)) <;> simp

/-! ### The whole call -/

/-- the seasonal samples of a call -/
def seasonalOf (e : BootEnv) (day0 : Int) (P : Nat) (scs : List (List Cell)) : List (List Cell) :=
  (seasonalSamples (scs.map fun c => (daysFrom day0 c.length).zip c) P e.draw).map fun l => l.map Prod.snd

/-- the steps of a successful call with bootstrapping -/
theorem runBootstrap_stages {e : BootEnv} {alts : Alternatives} {reps : Nat} {conf : ℚ} {day0 : Int} {pi : List Cell}
    {out : BootOut} (h : runBootstrap e alts reps conf day0 pi = .ok out) (hs : out.small = false) :
    ∃ cs s1 w scs s2 df, combos alts = .ok cs ∧ stage1 e pi (roundReps reps / nrModels) cs = .ok s1 ∧
      weightsOf s1.fits = .ok w ∧ positiveSeasonal s1.fits w = .ok scs ∧
      stage2 e s1.samples.flatten (seasonalOf e day0 (roundReps reps / nrModels) scs) (roundReps reps) = .ok s2 ∧
      s1.fits.getLast? = some df ∧ stage3 e pi conf df s2 = .ok out := by
  unfold runBootstrap at h
  obtain ⟨cs, hcs, h⟩ := bind_ok'.mp h
  obtain ⟨s1, hs1, h⟩ := bind_ok'.mp h
  obtain ⟨w, hw, h⟩ := bind_ok'.mp h
  by_cases ha : nrModels / 2 < (s1.fits.map adfZero).count true
  · rw [if_pos ha] at h; cases h
  rw [if_neg ha] at h
  obtain ⟨m, hm, h⟩ := bind_ok'.mp h
  obtain ⟨best, hb, h⟩ := bind_ok'.mp h
  by_cases hsm : nrModels / 2 < (s1.fits.map fun d => d.small).count true
  · rw [if_pos hsm] at h
    unfold smallResult at h
    obtain ⟨y, -, h⟩ := bind_ok'.mp h
    cases hc : cellMean (best.ratio.map fun c => c.map fun v => 1 - v) with
    | none => rw [hc] at h; cases h
    | some v =>
      rw [hc] at h
      cases h
      cases hs
  rw [if_neg hsm] at h
  by_cases hse : s1.samples = []
  · rw [if_pos hse] at h; cases h
  rw [if_neg hse] at h
  obtain ⟨scs, hscs, h⟩ := bind_ok'.mp h
  obtain ⟨s2, hs2, h⟩ := bind_ok'.mp h
  cases hl : s1.fits.getLast? with
  | none => rw [hl] at h; cases h
  | some df =>
    rw [hl] at h
    exact ⟨cs, s1, w, scs, s2, df, hcs, hs1, hw, hscs, hs2, hl, h⟩

end Verif.Cods
