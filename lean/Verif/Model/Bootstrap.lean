import Verif.Model.Stats

/-! # rdtools/bootstrap.py -/

namespace Verif

/-- `decomposition_type`; used at rdtools/bootstrap.py:17-71 -/
inductive Decomposition where
  | multiplicative | additive
  | other                     -- any other string
  deriving DecidableEq, Repr

/-- Residuals of one value (rdtools/bootstrap.py:48-51). A zero model value (which gives an infinity
or NaN in Python) is modelled as missing. -/
def residualAt (mult : Bool) (x m : Cell) : Cell :=
  if mult then cellOp (fun a b => a / b) x (if m = some 0 then none else m)
  else cellOp (fun a b => a - b) x m

/-- Recombination of one value (rdtools/bootstrap.py:64-69) -/
def recombineAt (mult : Bool) (m r : Cell) : Cell :=
  if mult then cellOp (fun a b => a * b) m r else cellOp (fun a b => a + b) m r

/-- The index sequence of `arch.bootstrap.CircularBlockBootstrap`: blocks of `block` consecutive
positions modulo `n`, beginning at the random `starts`, cut to length `n`.
Used at rdtools/bootstrap.py:17-71. -/
def blockIndices (n block : Nat) (starts : List Nat) : List Nat :=
  (starts.flatMap fun s => (List.range block).map fun k => (s + k) % n).take n

/-- `_make_time_series_bootstrap_samples` (rdtools/bootstrap.py:17-71). `draws` holds the random
block starts of each repetition. Signal and model share one index. -/
def bootstrapSamples (ty : Decomposition) (signal model : List Cell) (block : Nat)
    (draws : List (List Nat)) : Except PyErr (List (List Cell)) :=
  match ty with
  | .other => .error .valueError                                        -- 52-55
  | _ =>
    let mult := decide (ty = .multiplicative)
    let res := List.zipWith (residualAt mult) signal model              -- 48-51
    .ok (draws.map fun starts =>                                        -- 61-69
      List.zipWith (recombineAt mult) model
        ((blockIndices signal.length block starts).map fun i => (res[i]?).join))

/-- `_construct_confidence_intervals` (rdtools/bootstrap.py:74-118) once the metrics are known:
(lower, upper), exceedance level -/
def confidenceInterval (metrics : List ℚ) (exceed conf : ℚ) : Except PyErr ((ℚ × ℚ) × ℚ) :=
  (percentileE metrics (50 - conf / 2)).bind fun lo =>                  -- 112-113
  (percentileE metrics (50 + conf / 2)).bind fun hi =>
  (percentileE metrics (100 - exceed)).bind fun e =>                    -- 116
  .ok ((lo, hi), e)

end Verif
