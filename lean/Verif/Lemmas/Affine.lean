import Verif.Model.Normalization
import Verif.Lemmas.Interpolate
import Mathlib.Order.Monotone.Basic
import Mathlib.Order.Lattice

/-! Interpolation commutes with a change of unit and offset. -/

namespace Verif

/-- all values mapped by `x ↦ a * x + b` -/
def affS (a b : ℚ) (K : List (Int × Cell)) : List (Int × Cell) :=
  K.map fun r => (r.1, r.2.map fun x => a * x + b)

def affQ (a b : ℚ) (d : List (Int × ℚ)) : List (Int × ℚ) := d.map fun r => (r.1, a * r.2 + b)

theorem fst_affS (a b : ℚ) (K : List (Int × Cell)) : (affS a b K).map Prod.fst = K.map Prod.fst := by
  simp [affS, Function.comp_def]

theorem snd_affS (a b : ℚ) (K : List (Int × Cell)) :
    (affS a b K).map Prod.snd = (K.map Prod.snd).map fun v => v.map fun x => a * x + b := by
  simp [affS, Function.comp_def]

theorem fst_affQ (a b : ℚ) (K : List (Int × ℚ)) : (affQ a b K).map Prod.fst = K.map Prod.fst := by
  simp [affQ, Function.comp_def]

theorem dropna_affS (a b : ℚ) (K : List (Int × Cell)) : dropna (affS a b K) = affQ a b (dropna K) := by
  induction K with
  | nil => rfl
  | cons r K ih =>
    obtain ⟨t, x⟩ := r
    simp only [dropna, affS, affQ] at ih ⊢
    cases x <;> simp [ih]

theorem lookupK_affS (a b : ℚ) (K : List (Int × Cell)) (t : Int) :
    lookupK (affS a b K) t = (lookupK K t).map fun x => a * x + b := by
  induction K with
  | nil => rfl
  | cons r K ih =>
    obtain ⟨u, x⟩ := r
    simp only [affS, List.map_cons, lookupK] at ih ⊢
    split
    · rfl
    · exact ih

theorem toSeries_affQ (a b : ℚ) (d : List (Int × ℚ)) :
    toSeries (affQ a b d) = affS a b (toSeries d) := by
  simp [toSeries, affQ, affS, Function.comp_def]

theorem nextValid_affS (a b : ℚ) (K : List (Int × Cell)) :
    nextValid (affS a b K) = (nextValid K).map fun r => (r.1, a * r.2 + b) := by
  induction K with
  | nil => rfl
  | cons r K ih =>
    obtain ⟨u, x⟩ := r
    cases x with
    | none => simpa [affS, nextValid] using ih
    | some v => simp [affS, nextValid]

theorem lerpAt_aff (c e : ℚ) (a : Int) (va : ℚ) (b : Int) (vb : ℚ) (t : Int) :
    lerpAt a (c * va + e) b (c * vb + e) t = c * lerpAt a va b vb t + e := by
  unfold lerpAt; ring

theorem interpFrom_affS (a b : ℚ) (p : Option (Int × ℚ)) (K : List (Int × Cell)) :
    interpFrom (p.map fun r => (r.1, a * r.2 + b)) (affS a b K) = affS a b (interpFrom p K) := by
  induction K generalizing p with
  | nil => cases p <;> rfl
  | cons r K ih =>
    obtain ⟨u, x⟩ := r
    cases x with
    | some v =>
      have := ih (some (u, v))
      simp only [Option.map_some] at this
      simp only [affS, List.map_cons, Option.map_some, interpFrom] at this ⊢
      rw [this]
    | none =>
      have h := ih p
      have hnv := nextValid_affS a b K
      simp only [affS, List.map_cons, Option.map_none, interpFrom] at h hnv ⊢
      rw [h, hnv]
      congr 2
      cases p with
      | none => rfl
      | some q =>
        cases nextValid K with
        | none => rfl
        | some s => simp [lerpAt_aff]

theorem interpolateSeries_aff (a b : ℚ) (ts : Series) (target : List Int) (maxTd : Option ℚ) :
    interpolateSeries (affS a b ts) target maxTd =
      (interpolateSeries ts target maxTd).map (affS a b) := by
  unfold interpolateSeries
  rw [dropna_affS]
  dsimp only
  rw [fst_affQ, toSeries_affQ]
  split
  · rfl
  · simp only [Except.map]
    congr 1
    simp only [lookupK_affS]
    generalize List.filter _ _ = F
    have : (F.map fun r => (r.1, Option.map (fun x => a * x + b) (lookupK (toSeries (dropna ts)) r.1))) =
        affS a b (F.map fun r => (r.1, lookupK (toSeries (dropna ts)) r.1)) := by
      simp [affS, Function.comp_def]
    rw [this]
    have h2 := interpFrom_affS a b none (F.map fun r => (r.1, lookupK (toSeries (dropna ts)) r.1))
    rw [Option.map_none] at h2
    rw [h2]
    simp only [lookupK_affS]
    simp [affS, Function.comp_def]

theorem max?_mono {g : ℚ → ℚ} (hg : Monotone g) (l : List ℚ) :
    (l.map g).max? = l.max?.map g := by
  cases l with
  | nil => rfl
  | cons a l =>
    simp only [List.map_cons, List.max?_cons', Option.map_some, Option.some.injEq]
    induction l generalizing a with
    | nil => rfl
    | cons b l ih =>
      simp only [List.map_cons, List.foldl_cons]
      rw [← ih, hg.map_max]

theorem min?_mono {g : ℚ → ℚ} (hg : Monotone g) (l : List ℚ) :
    (l.map g).min? = l.min?.map g := by
  cases l with
  | nil => rfl
  | cons a l =>
    simp only [List.map_cons, List.min?_cons', Option.map_some, Option.some.injEq]
    induction l generalizing a with
    | nil => rfl
    | cons b l ih =>
      simp only [List.map_cons, List.foldl_cons]
      rw [← ih, hg.map_min]

theorem valids_map (g : ℚ → ℚ) (l : List Cell) :
    valids (l.map fun v => v.map g) = (valids l).map g := by
  induction l with
  | nil => rfl
  | cons a l ih =>
    unfold valids at ih ⊢
    cases a with
    | none => simpa only [List.map_cons, Option.map_none, List.filterMap_cons, id] using ih
    | some x =>
      simp only [List.map_cons, Option.map_some, List.filterMap_cons, id]
      exact congrArg (g x :: ·) ih

theorem mean_aff (a b : ℚ) (l : List ℚ) :
    mean (l.map fun x => a * x + b) = (mean l).map fun x => a * x + b := by
  unfold mean
  cases l with
  | nil => rfl
  | cons x l =>
    have h : ∀ l : List ℚ, (l.map fun x => a * x + b).sum = a * l.sum + b * l.length := by
      intro l
      induction l with
      | nil => simp
      | cons y l ih => simp [ih]; ring
    have h' := h (x :: l)
    simp only [List.map_cons] at h'
    simp only [List.map_cons, Option.map_some, Option.some.injEq, h', List.length_cons, List.length_map]
    have : ((l.length + 1 : Nat) : ℚ) ≠ 0 := by positivity
    field_simp

end Verif
