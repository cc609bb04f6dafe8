import Verif.Model.Basic

/-! # `ValidatedFilterDict` (rdtools/analysis_chains.py:1273-1297) -/

namespace Verif

/-- a Python dict with string keys, in insertion order;
used at rdtools/analysis_chains.py:1273-1297 -/
abbrev Dict (V : Type) := List (String × V)

namespace Dict
variable {V : Type}

/-- `d.get(k)`; used at rdtools/analysis_chains.py:1273-1297 -/
def get? (d : Dict V) (k : String) : Option V :=
  match d with
  | [] => none
  | (k', v) :: d => if k' = k then some v else get? d k

/-- `k in d`; used at rdtools/analysis_chains.py:1273-1297 -/
def has (d : Dict V) (k : String) : Bool := (get? d k).isSome

/-- `dict.__setitem__`: an existing key keeps its position;
used at rdtools/analysis_chains.py:1273-1297 -/
def set (d : Dict V) (k : String) (v : V) : Dict V :=
  match d with
  | [] => [(k, v)]
  | (k', v') :: d => if k' = k then (k, v) :: d else (k', v') :: set d k v

/-- `dict.update(pairs)`; used at rdtools/analysis_chains.py:1273-1297 -/
def setAll (d : Dict V) (kv : List (String × V)) : Dict V := kv.foldl (fun d p => set d p.1 p.2) d

/-- `dict.__delitem__` for a key that is present; used at rdtools/analysis_chains.py:1273-1297 -/
def del (d : Dict V) (k : String) : Dict V := d.filter fun p => decide (p.1 ≠ k)

end Dict

/-- the object: `valid_keys` and the inherited dict contents;
used at rdtools/analysis_chains.py:1273-1297 -/
structure FilterDict (V : Type) where
  valid : List String
  items : Dict V
  deriving DecidableEq, Repr

/-- what is passed to `update`: pairs from a mapping, or from an iterator that can be consumed only
once, followed by keyword arguments; used at rdtools/analysis_chains.py:1285-1289 -/
structure UpdateArg (V : Type) where
  pairs : List (String × V)
  oneShot : Bool
  kwargs : List (String × V)

namespace FilterDict
variable {V : Type}

/-- `_validate_keys` (rdtools/analysis_chains.py:1291-1294) -/
def validateKeys (d : FilterDict V) : Except PyErr Unit :=
  if d.items.all fun p => decide (p.1 ∈ d.valid) then .ok () else .error .keyError

/-- `__init__` (rdtools/analysis_chains.py:1274-1278) -/
def construct (valid : List String) (pairs : List (String × V)) : Except PyErr (FilterDict V) :=
  let d : FilterDict V := ⟨valid, Dict.setAll [] pairs⟩
  (validateKeys d).map fun _ => d

/-- `__setitem__` (rdtools/analysis_chains.py:1280-1283) -/
def setItem (d : FilterDict V) (k : String) (v : V) : Except PyErr (FilterDict V) :=
  if k ∈ d.valid then .ok { d with items := d.items.set k v } else .error .keyError

/-- `update` (rdtools/analysis_chains.py:1285-1289): `dict(*args, **kwargs)` reads the argument a first time,
`super().update` a second time; an iterator is exhausted by then -/
def update (d : FilterDict V) (a : UpdateArg V) : Except PyErr (FilterDict V) :=
  let seen : Dict V := Dict.setAll [] (a.pairs ++ a.kwargs)
  if seen.all fun p => decide (p.1 ∈ d.valid) then
    .ok { d with items := d.items.setAll ((if a.oneShot then [] else a.pairs) ++ a.kwargs) }
  else .error .keyError

/-- inherited `__delitem__`; used at rdtools/analysis_chains.py:1273-1297 -/
def delItem (d : FilterDict V) (k : String) : Except PyErr (FilterDict V) :=
  if d.items.has k then .ok { d with items := d.items.del k } else .error .keyError

/-- inherited `clear`; used at rdtools/analysis_chains.py:1273-1297 -/
def clear (d : FilterDict V) : FilterDict V := { d with items := [] }

/-- inherited `setdefault`, which does not go through `__setitem__`;
used at rdtools/analysis_chains.py:1273-1297 -/
def setDefault (d : FilterDict V) (k : String) (v : V) : FilterDict V :=
  if d.items.has k then d else { d with items := d.items.set k v }

/-- inherited `|=`, which does not go through `update`;
used at rdtools/analysis_chains.py:1273-1297 -/
def ior (d : FilterDict V) (pairs : List (String × V)) : FilterDict V :=
  { d with items := d.items.setAll pairs }

/-- `pickle.loads(pickle.dumps(d))` through `__reduce__` (rdtools/analysis_chains.py:1296-1297) -/
def pickled (d : FilterDict V) : Except PyErr (FilterDict V) := construct d.valid d.items

/-- the operations the class defines or inherits unchanged with the same effect;
used at rdtools/analysis_chains.py:1273-1297 -/
inductive Op (V : Type) where
  | setItem (k : String) (v : V)
  | update (a : UpdateArg V)
  | delItem (k : String)
  | clear
  | pickle

/-- one operation: the dict afterwards (unchanged by an exception) and the outcome;
used at rdtools/analysis_chains.py:1273-1297 -/
def step (d : FilterDict V) : Op V → FilterDict V × Except PyErr Unit
  | .setItem k v => match d.setItem k v with | .ok d' => (d', .ok ()) | .error e => (d, .error e)
  | .update a => match d.update a with | .ok d' => (d', .ok ()) | .error e => (d, .error e)
  | .delItem k => match d.delItem k with | .ok d' => (d', .ok ()) | .error e => (d, .error e)
  | .clear => (d.clear, .ok ())
  | .pickle => match d.pickled with | .ok d' => (d', .ok ()) | .error e => (d, .error e)

end FilterDict
end Verif
