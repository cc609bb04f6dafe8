import Verif.Props.AvailOutages
import Verif.Props.EnergyRegular
import Verif.Props.Filtering

/-! Lemmas about the records and the fill loop of `_calc_loss_system`. -/

namespace Verif
open Avail Spec

/-- the fields of a reported outage -/
theorem outageRecord_ok {i : Input} {d : ErrorDist} {s e : Nat} {o : Outage}
    (h : outageRecord i d s e = .ok o) :
    o.first = s ∧ o.last = e ∧
    o.daylight = ((slice d.powerR s e).filter fun x => cellCmp (fun a b => decide (a < b)) (some 0) x).length ∧
    interp1d d.lower o.daylight = some o.errorLower ∧ interp1d d.upper o.daylight = some o.errorUpper ∧
    o.expected = (valids (slice d.energyR s e)).sum ∧
    o.energyStart = i.cum.getD (if s = 0 then i.cum.length - 1 else s - 1) none ∧
    o.energyEnd = i.cum.getD e none ∧
    (o.actual, o.type, o.loss) = classify o.expected o.errorLower o.energyStart o.energyEnd ∧
    o.ciLower = (1 + o.errorLower) * o.expected ∧ o.ciUpper = (1 + o.errorUpper) * o.expected := by
  unfold outageRecord at h
  simp only at h
  unfold interpE at h
  cases h1 : interp1d d.lower (((slice d.powerR s e).filter fun x =>
        cellCmp (fun a b => decide (a < b)) (some 0) x).length : ℚ) with
  | none => rw [h1] at h; simp [Except.bind] at h
  | some lo =>
    cases h2 : interp1d d.upper (((slice d.powerR s e).filter fun x =>
          cellCmp (fun a b => decide (a < b)) (some 0) x).length : ℚ) with
    | none => rw [h1, h2] at h; simp [Except.bind] at h
    | some up =>
      rw [h1, h2] at h
      simp only [Except.bind, Except.ok.injEq] at h
      subst h
      exact ⟨rfl, rfl, rfl, h1, h2, rfl, rfl, rfl, rfl, rfl, rfl⟩

theorem outageInfo_mem {i : Input} {mask : List (List Bool)} {d : ErrorDist} {outs : List Outage}
    (h : outageInfo i mask d = .ok outs) {o : Outage} (ho : o ∈ outs) :
    outageRecord i d o.first o.last = .ok o := by
  unfold outageInfo at h
  obtain ⟨x, -, e⟩ := forall₂_mem_right (exceptMapM_ok h) ho
  obtain ⟨h1, h2, -⟩ := outageRecord_ok e
  rw [h1, h2]
  exact e

/-- one iteration of the fill loop -/
theorem fillOutage_ok {i : Input} {acc acc' : SystemLoss} {o : Outage} (h : fillOutage i acc o = .ok acc') :
    ∃ se, energyFromPower (slice (i.index.zip i.expected) o.first o.last) none none .rightLabeled i.freq = .ok se ∧
    (∀ k, acc'.loss[k]? = acc.loss[k]?.map fun x => if o.first ≤ k ∧ k ≤ o.last then
        cellOp (· + ·) x (cellDiv (cellOp (· * ·) (i.expected.getD k none) o.loss)
          (some (valids (se.map Prod.snd)).sum)) else x) ∧
    (∀ k, acc'.corrected[k]? = acc.corrected[k]?.map fun x => if o.first ≤ k ∧ k ≤ o.last then
        cellOp (· + ·) o.energyStart (cellOp (· * ·) (lookupK (cumsumK 0 se) (i.index.getD k 0))
          (cellDiv o.actual (some (valids (se.map Prod.snd)).sum))) else x) := by
  unfold fillOutage at h
  simp only at h
  cases hse : energyFromPower (slice (i.index.zip i.expected) o.first o.last) none none .rightLabeled i.freq with
  | error e => rw [hse] at h; cases h
  | ok se =>
    rw [hse] at h
    simp only [Except.map, Except.ok.injEq] at h
    subst h
    refine ⟨se, rfl, fun k => ?_, fun k => ?_⟩
    · simp only [List.getElem?_map, List.getElem?_zipIdx, Option.map_map]
      cases acc.loss[k]? <;> simp
    · simp only [List.getElem?_map, List.getElem?_zipIdx, Option.map_map]
      cases acc.corrected[k]? <;> simp

/-- the whole loop, for disjoint outages -/
theorem fill_loop {i : Input} {outs : List Outage}
    (hp : outs.Pairwise (fun o o' => o.last + 1 < o'.first)) {acc sl : SystemLoss}
    (hle : ∀ o ∈ outs, o.first ≤ o.last)
    (h : outs.foldlM (fillOutage i) acc = .ok sl) :
    (∀ k, (∀ o ∈ outs, ¬ (o.first ≤ k ∧ k ≤ o.last)) → sl.loss[k]? = acc.loss[k]? ∧
      sl.corrected[k]? = acc.corrected[k]?) ∧
    ∀ o ∈ outs, ∃ se, energyFromPower (slice (i.index.zip i.expected) o.first o.last) none none .rightLabeled i.freq = .ok se ∧
      ∀ k, o.first ≤ k → k ≤ o.last →
        (sl.loss[k]? = acc.loss[k]?.map fun x =>
          cellOp (· + ·) x (cellDiv (cellOp (· * ·) (i.expected.getD k none) o.loss)
            (some (valids (se.map Prod.snd)).sum))) ∧
        (sl.corrected[k]? = acc.corrected[k]?.map fun _ =>
          cellOp (· + ·) o.energyStart (cellOp (· * ·) (lookupK (cumsumK 0 se) (i.index.getD k 0))
            (cellDiv o.actual (some (valids (se.map Prod.snd)).sum)))) := by
  induction outs generalizing acc with
  | nil =>
    simp only [List.foldlM_nil] at h
    cases h
    exact ⟨fun k _ => ⟨rfl, rfl⟩, fun o ho => by simp at ho⟩
  | cons o outs ih =>
    rw [List.foldlM_cons] at h
    cases h1 : fillOutage i acc o with
    | error e => rw [h1] at h; simp [bind, Except.bind] at h
    | ok acc1 =>
      rw [h1] at h
      simp only [bind, Except.bind] at h
      rw [List.pairwise_cons] at hp
      obtain ⟨i1, i2⟩ := ih hp.2 (fun o ho => hle o (by simp [ho])) h
      obtain ⟨se, hse, l1, c1⟩ := fillOutage_ok h1
      refine ⟨fun k hk => ?_, fun o' ho' => ?_⟩
      · obtain ⟨e1, e2⟩ := i1 k fun o' ho' => hk o' (by simp [ho'])
        have hko := hk o (by simp)
        rw [e1, e2, l1, c1]
        simp only [if_neg hko]
        constructor
        · cases acc.loss[k]? <;> rfl
        · cases acc.corrected[k]? <;> rfl
      · rcases List.mem_cons.mp ho' with rfl | ho'
        · refine ⟨se, hse, fun k g1 g2 => ?_⟩
          obtain ⟨e1, e2⟩ := i1 k fun o'' ho'' => by
            have := hp.1 o'' ho''
            omega
          rw [e1, e2, l1, c1]
          simp only [if_pos (And.intro g1 g2), and_self]
        · obtain ⟨se', hse', hh⟩ := i2 o' ho'
          refine ⟨se', hse', fun k g1 g2 => ?_⟩
          obtain ⟨e1, e2⟩ := hh k g1 g2
          have hd := hp.1 o' ho'
          have hko : ¬ (o.first ≤ k ∧ k ≤ o.last) := by omega
          rw [e1, e2, l1, c1]
          simp only [if_neg hko]
          constructor
          · cases acc.loss[k]? <;> rfl
          · cases acc.corrected[k]? <;> rfl

end Verif
