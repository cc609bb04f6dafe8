import Verif.Model.Filtering
import Verif.Model.Frame

/-! # The call of pvlib's clear-sky detection (rdtools/filtering.py:166-292) -/

namespace Verif

/-- the arguments `detect_clearsky` is called with (rdtools/filtering.py:279-291); `extra` are further keyword arguments -/
structure DetectCall where
  rows : List (Int × Cell × Cell)
  limits : ClearskyParams
  meanDiff : ℚ
  lowerLine : ℚ
  upperLine : ℚ
  returnComponents : Bool
  extra : List (String × String)
  deriving DecidableEq, Repr

/-- `pd.concat([measured, clearsky], axis=1, join="outer")` (rdtools/filtering.py:276-277). Equal indexes are kept as they are;
else both have to be free of duplicates and the union is sorted -/
def concatOuter (measured clearsky : Series) : Except PyErr (List (Int × Cell × Cell)) :=
  if measured.map Prod.fst = clearsky.map Prod.fst then
    .ok (List.zipWith (fun m c => (m.1, m.2, c.2)) measured clearsky)
  else if ¬ (measured.map Prod.fst).Nodup ∨ ¬ (clearsky.map Prod.fst).Nodup then .error .valueError
  else .ok ((sortedUnion (measured.map Prod.fst ++ clearsky.map Prod.fst)).map fun t =>
    (t, lookupK measured t, lookupK clearsky t))

/-- `pvlib_clearsky_filter` (rdtools/filtering.py:166-292) as the call it makes: the keyword `return_components` is overwritten
(279); the mask is what `detect_clearsky` returns for the call -/
def clearskyCall (measured clearsky : Series) (freqNs : Option ℚ) (p : ClearskyParams) (meanDiff lowerLine upperLine : ℚ)
    (lookup : Bool) (kwargs : List (String × String)) : Except PyErr DetectCall :=
  (concatOuter measured clearsky).map fun rows =>
    ⟨rows, clearskyLookup lookup freqNs p, meanDiff, lowerLine, upperLine, false,
      kwargs.filter fun k => k.1 ≠ "return_components"⟩

end Verif
