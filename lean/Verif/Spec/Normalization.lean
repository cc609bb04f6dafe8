import Verif.Model.Basic

/-! Specification vocabulary for interpolation and energy conversion. It only speaks about the
rows of the input series, not about the model's helpers. -/

namespace Verif.Spec

/-- `t` carries the valid (non-NaN) sample `v`. -/
def ValidAt (ts : Series) (t : Int) (v : ℚ) : Prop := (t, some v) ∈ ts

/-- `a` and `b` are valid samples with no valid sample strictly between them. -/
def Consecutive (ts : Series) (a : Int) (va : ℚ) (b : Int) (vb : ℚ) : Prop :=
  ValidAt ts a va ∧ ValidAt ts b vb ∧ a < b ∧ ∀ u v, ValidAt ts u v → u ≤ a ∨ b ≤ u

/-- `y` is the value at `t` of the straight line through `(a, va)` and `(b, vb)`. -/
def OnChord (a : Int) (va : ℚ) (b : Int) (vb : ℚ) (t : Int) (y : ℚ) : Prop :=
  (y - va) * ((b : ℚ) - a) = (vb - va) * ((t : ℚ) - a)

/-- timestamps strictly increase -/
def Increasing (ts : Series) : Prop := (ts.map Prod.fst).Pairwise (· < ·)

instance (ts : Series) : Decidable (Increasing ts) := by unfold Increasing; infer_instance

/-- lengths of the gaps between consecutive valid samples, in order -/
def validGaps (ts : Series) : List ℚ :=
  let v := ts.filterMap fun r => r.2.map fun _ => r.1
  List.zipWith (fun a b : Int => (b : ℚ) - a) v v.tail

end Verif.Spec

namespace Verif.Spec

/-- valid rows of a series, in order -/
def validRows (ts : Series) : List (Int × ℚ) := ts.filterMap fun r => r.2.map fun v => (r.1, v)

/-- length of the overlap of the intervals `(a, b]` and `(x, y]`, in ns -/
def overlap (a b x y : Int) : Int := max 0 (min b y - max a x)

/-- nanoseconds in an hour -/
def nsPerHour : ℚ := 3600 * 1000000000

/-- Right-labeled power: the energies that the intervals between consecutive valid samples
contribute to the period `(x, y]`. An interval `(a, b]` between consecutive valid samples of length
at most `m` carries the power of its right end; longer ones carry nothing. -/
def rectContributions (m : ℚ) (x y : Int) : List (Int × ℚ) → List ℚ
  | (a, _) :: (b, vb) :: l =>
    (if (b : ℚ) - a ≤ m ∧ 0 < overlap a b x y then [vb * overlap a b x y / nsPerHour] else []) ++
      rectContributions m x y ((b, vb) :: l)
  | _ => []

/-- total, missing when there is nothing to add up -/
def total (l : List ℚ) : Cell := if l = [] then none else some l.sum

/-- Instantaneous power: integral over `(x, y]` (in value·hours) of the broken line through the
samples, continued by its last value after the last sample. -/
def trapIntegral (x y : Int) : List (Int × ℚ) → ℚ
  | [] => 0
  | [(a, va)] => va * (max 0 (y - max a x) : Int) / nsPerHour
  | (a, va) :: (b, vb) :: l =>
    let line (s : Int) : ℚ := va + (vb - va) * ((s : ℚ) - a) / ((b : ℚ) - a)
    (if max a x < min b y
      then (line (max a x) + line (min b y)) / 2 * (((min b y : Int) : ℚ) - (max a x : Int)) / nsPerHour
      else 0) + trapIntegral x y ((b, vb) :: l)

end Verif.Spec

namespace Verif.Spec

/-- steps of the index of a series, in ns -/
def indexSteps (ts : Series) : List ℚ :=
  List.zipWith (fun a b : Int => (b : ℚ) - a) (ts.map Prod.fst) (ts.map Prod.fst).tail

/-- `L` falls into a step of the index that is longer than `m` -/
def InLongStep (ts : Series) (m : ℚ) (L : Int) : Prop :=
  ∃ p ∈ (ts.map Prod.fst).zip (ts.map Prod.fst).tail, p.1 < L ∧ L ≤ p.2 ∧ m < (p.2 : ℚ) - p.1

instance (ts : Series) (m : ℚ) (L : Int) : Decidable (InLongStep ts m L) := by
  unfold InLongStep; infer_instance

/-- a regular series: `c k` at time `t0 + k·f`, for `k < n` -/
def regular (t0 f : Int) (n : Nat) (c : Nat → Cell) : Series :=
  (List.range n).map fun k : Nat => (t0 + (k : Int) * f, c k)

/-- energy of all the intervals between consecutive samples of right-labeled power -/
def rectEnergy : List (Int × ℚ) → ℚ
  | (a, _) :: (b, vb) :: l => vb * ((b : ℚ) - a) / nsPerHour + rectEnergy ((b, vb) :: l)
  | _ => 0

end Verif.Spec
