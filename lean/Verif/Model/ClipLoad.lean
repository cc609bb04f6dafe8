import Verif.Model.ClipXgb

/-!
# Loading the clipping model (rdtools/filtering.py:13-25, 813, 872)

`_load_xgboost_clipping_model` keeps the classifier in a global variable. Calls of `xgboost_clip_filter` in several threads are
modelled as a transition system: any thread may make the next step. A step reads or writes the global variable at most once.
-/

namespace Verif.Clip

/-- where a call of `xgboost_clip_filter` is. Objects are numbered in the order of their construction.
Models the lines rdtools/filtering.py:22-25, 813, 872. -/
inductive Pc where
  | start                 -- about to evaluate `xgboost_clipping_model is None` (22)
  | make                  -- about to construct the classifier and assign it (23)
  | load                  -- about to read the file into the classifier (24)
  | fetch                 -- about to return the global (25, 813)
  | predict (obj : Nat)   -- holds the classifier in the local variable, about to call `predict` (872)
  | done                  -- `predict` ran with the model of the file
  | raised (e : PyErr)    -- the call raised
  deriving DecidableEq, Repr

/-- the global variable, which objects have been loaded, how many were constructed, how often the file was read, and
all calls; rdtools/filtering.py:14 -/
structure LoadState where
  global : Option Nat
  loaded : Nat → Bool
  made : Nat
  reads : Nat
  calls : Nat → Pc

/-- after `import rdtools` (rdtools/filtering.py:14): no classifier, no call has begun -/
def LoadState.init : LoadState :=
  { global := none, loaded := fun _ => false, made := 0, reads := 0, calls := fun _ => .start }

/-- the call `c` moves to `p`; used for rdtools/filtering.py:20-25 -/
def LoadState.move (s : LoadState) (c : Nat) (p : Pc) : LoadState :=
  { s with calls := fun d => if d = c then p else s.calls d }

/-- one step of the call `c` (rdtools/filtering.py:20-25, 813, 872). `ok` tells whether the constructor or the reading of the
file succeeds; other steps do not depend on it. A failed constructor raises ImportError (modelled as `exception`) and leaves
the global alone; a failed `load_model` raises XGBoostError, a ValueError, after the global has been assigned. `predict` of
a classifier that is not loaded raises NotFittedError, a ValueError. The steps between 813 and 872 do not touch the model and
are left out. Simplification: a failed reading leaves a loaded classifier loaded. -/
def loadStep (s : LoadState) (c : Nat) (ok : Bool) : LoadState :=
  match s.calls c with
  | .start => s.move c (if s.global = none then .make else .fetch)                       -- 22
  | .make =>
    if ok then { (s.move c .load) with global := some s.made, made := s.made + 1 }       -- 23
    else s.move c (.raised .exception)
  | .load =>
    match s.global with
    | some g =>
      if ok then { (s.move c .fetch) with
        loaded := fun o => if o = g then true else s.loaded o, reads := s.reads + 1 }    -- 24
      else s.move c (.raised .valueError)
    | none => s.move c (.raised .attributeError)                                         -- unreachable
  | .fetch =>
    match s.global with
    | some g => s.move c (.predict g)                                                    -- 25, 813
    | none => s.move c (.raised .attributeError)                                         -- unreachable
  | .predict o => s.move c (if s.loaded o then .done else .raised .valueError)           -- 872
  | .done => s
  | .raised _ => s

/-- a schedule: which call makes the next step, and whether the outside world lets it succeed;
used for rdtools/filtering.py:20-25 -/
def loadRun (s : LoadState) (sched : List (Nat × Bool)) : LoadState :=
  sched.foldl (fun s x => loadStep s x.1 x.2) s

/-- a call made alone, from its beginning to its end (at most five steps): `ctor` and `file` tell whether the constructor and
the reading succeed (rdtools/filtering.py:20-25, 813, 872) -/
def loadCall (s : LoadState) (c : Nat) (ctor file : Bool) : LoadState :=
  loadRun s [(c, true), (c, if s.global = none then ctor else true), (c, file), (c, true), (c, true)]

end Verif.Clip
