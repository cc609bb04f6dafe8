import Verif.Model.CodsEvents

/-! # Specifications for CODS -/

namespace Verif.Cods.Spec

open Verif

/-- the islands of candidate days between `lo` and `hi`: maximal runs that end before `hi`; after an island the search
continues `f` days after its end -/
inductive Islands (c : Nat → Bool) (f hi : Nat) : Nat → List (Nat × Nat) → Prop
  | none {lo : Nat} (h : ∀ i, lo ≤ i → i < hi → c i = false) : Islands c f hi lo []
  | atEnd {lo s : Nat} (h0 : lo ≤ s) (h1 : s < hi) (h2 : ∀ i, lo ≤ i → i < s → c i = false)
      (h3 : ∀ i, s ≤ i → i < hi → c i = true) : Islands c f hi lo []
  | cons {lo s e : Nat} {L : List (Nat × Nat)} (h0 : lo ≤ s) (h1 : s ≤ e) (h2 : e + 1 < hi)
      (h3 : ∀ i, lo ≤ i → i < s → c i = false) (h4 : ∀ i, s ≤ i → i ≤ e → c i = true) (h5 : c (e + 1) = false)
      (h6 : Islands c f hi (e + f + 1) L) : Islands c f hi lo ((s, e) :: L)

/-- `j` is the first day with the largest metric from `a` to `b` -/
def FirstMax (m : Nat → Cell) (a b j : Nat) : Prop :=
  a ≤ j ∧ j ≤ b ∧ ∃ v, m j = some v ∧ (∀ i w, a ≤ i → i ≤ b → m i = some w → w ≤ v) ∧
    ∀ i w, a ≤ i → i < j → m i = some w → w < v

/-- the events after all islands: the best day of an island, unless it lies in the window of a later island -/
def Event (m : Nat → Cell) (f : Nat) (L : List (Nat × Nat)) (j : Nat) : Prop :=
  ∃ L1 s e L2, L = L1 ++ (s, e) :: L2 ∧ FirstMax m (s - f) (e + f) j ∧ ∀ p ∈ L2, j + f < p.1

/-- number of runs of true values, given the value before -/
def runs : Bool → List Bool → Nat
  | _, [] => 0
  | prev, b :: l => (if b && !prev then 1 else 0) + runs b l

end Verif.Cods.Spec
