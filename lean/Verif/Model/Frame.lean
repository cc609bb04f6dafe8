import Verif.Model.Stats

/-!
# Keyed columns: the pandas index operations used by the time-series code

A keyed column is a list of (timestamp, cell) pairs in row order.
-/

namespace Verif

/-- `s.loc[t]` / one label of `s.reindex(...)`: the cell at label `t`, NaN if absent.
Used at rdtools/availability.py:502-516, rdtools/filtering.py:603-604. -/
def lookupK {α : Type} (K : List (Int × Option α)) (t : Int) : Option α :=
  match K with
  | [] => none
  | (u, x) :: l => if u = t then x else lookupK l t

/-- `s.reindex(idx)`; used at rdtools/normalization.py:533-621, 453-530 -/
def reindexK {α : Type} (K : List (Int × Option α)) (idx : List Int) : List (Int × Option α) :=
  idx.map fun t => (t, lookupK K t)

/-- `s.reindex(idx, method='bfill')` for a sorted `s`: the cell (possibly NaN) at the first label
that is `≥ t`, NaN if there is none. Used at rdtools/normalization.py:352-450. -/
def firstLabelGe {α : Type} (K : List (Int × Option α)) (t : Int) : Option α :=
  match K with
  | [] => none
  | (u, x) :: l => if t ≤ u then x else firstLabelGe l t

/-- `s.reindex(idx, method='bfill')`; used at rdtools/normalization.py:453-530 -/
def reindexBfill {α : Type} (K : List (Int × Option α)) (idx : List Int) :
    List (Int × Option α) :=
  idx.map fun t => (t, firstLabelGe K t)

/-- `column.bfill()` in row order: a NaN takes the next non-NaN value, trailing NaNs stay.
Used at rdtools/normalization.py:533-621, 453-530. -/
def bfillK {α : Type} : List (Int × Option α) → List (Int × Option α)
  | [] => []
  | (t, some a) :: l => (t, some a) :: bfillK l
  | (t, none) :: l =>
    (t, match bfillK l with
      | [] => none
      | (_, x) :: _ => x) :: bfillK l

/-- First non-NaN row. Used at rdtools/normalization.py:533-621. -/
def nextValid : List (Int × Cell) → Option (Int × ℚ)
  | [] => none
  | (t, some v) :: _ => some (t, v)
  | (_, none) :: l => nextValid l

/-- Straight line through `(a, va)` and `(b, vb)` at `t` (`np.interp` between two points).
Used at rdtools/normalization.py:533-621. -/
def lerpAt (a : Int) (va : ℚ) (b : Int) (vb : ℚ) (t : Int) : ℚ :=
  va + ((t : ℚ) - a) / ((b : ℚ) - a) * (vb - va)

/-- `Series.interpolate(method='index')` / `method='time'` with pandas defaults
(`limit_direction='forward'`): NaNs between valid rows are linearly interpolated in the index,
leading NaNs stay, trailing NaNs take the last valid value.
Used at rdtools/normalization.py:533-621, 453-530. -/
def interpFrom : Option (Int × ℚ) → List (Int × Cell) → List (Int × Cell)
  | _, [] => []
  | _, (t, some v) :: l => (t, some v) :: interpFrom (some (t, v)) l
  | p, (t, none) :: l =>
    (t, match p, nextValid l with
      | none, _ => none
      | some (_, va), none => some va
      | some (a, va), some (b, vb) => some (lerpAt a va b vb t)) :: interpFrom p l

/-- `dropna()`; used at rdtools/normalization.py:533-621, 453-530 -/
def dropna (s : Series) : List (Int × ℚ) :=
  s.filterMap fun r => r.2.map fun v => (r.1, v)

/-- sorted union of timestamps (`Index.append(...).drop_duplicates()` followed by `sort_index`,
or `Index.union`); used at rdtools/normalization.py:533-621, 453-530 -/
def sortedUnion (l : List Int) : List Int := l.dedup.insertionSort (· ≤ ·)

/-- `index.diff()` of consecutive timestamps, labelled by the later one; first entry NaN.
Used at rdtools/degradation.py:242-245. -/
def gapsFrom : Int → List Int → List (Int × Cell)
  | _, [] => []
  | p, t :: l => (t, some ((t : ℚ) - p)) :: gapsFrom t l

/-- `index.diff()` with the leading NaN; used at rdtools/degradation.py:242-245, rdtools/normalization.py:585-588 -/
def gaps : List Int → List (Int × Cell)
  | [] => []
  | t :: l => (t, none) :: gapsFrom t l

/-- embed valid rows back into a series; used at rdtools/normalization.py:533-621, 453-530 -/
def toSeries (l : List (Int × ℚ)) : Series := l.map fun r => (r.1, some r.2)

/-- strictly increasing list of timestamps; used at rdtools/normalization.py:533-621 -/
def StrictSorted (l : List Int) : Prop := l.Pairwise (· < ·)

/-- decidability of the sortedness check; used at rdtools/normalization.py:533-621 -/
instance (l : List Int) : Decidable (StrictSorted l) := by unfold StrictSorted; infer_instance

end Verif
