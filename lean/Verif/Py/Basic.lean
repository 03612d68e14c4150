/-!
# Python notions used by the models

Exceptions are values of `PyErr`; a Python function that may raise is modelled by a function to
`Except PyErr _`.
-/

namespace Verif

/-- The Python exceptions that the modelled code can raise (only the class is modelled, not the
message). -/
inductive PyErr where
  | valueError | typeError | keyError | indexError | zeroDivisionError | attributeError
  | assertionError | notImplementedError | runtimeError | unboundLocalError | nameError
  | systemExit | fileExistsError | fileNotFoundError | eofError | osError | pivError | overflowError | interpError
  deriving DecidableEq, Repr

/-- Equality of results (value or exception) is decidable. -/
instance instDecidableEqExcept {ε α : Type} [DecidableEq ε] [DecidableEq α] : DecidableEq (Except ε α)
  | .ok a, .ok b => if h : a = b then isTrue (by rw [h]) else isFalse (by intro h'; cases h'; exact h rfl)
  | .error a, .error b =>
    if h : a = b then isTrue (by rw [h]) else isFalse (by intro h'; cases h'; exact h rfl)
  | .ok _, .error _ => isFalse (by intro h; cases h)
  | .error _, .ok _ => isFalse (by intro h; cases h)

/-- Number of elements of the Python `range(start, stop, step)`; same case distinction and formula as
CPython (`compute_range_length`).  `step = 0` is rejected by Python with `ValueError`: callers model that
branch explicitly, the value 0 given here is never used. -/
def rangeLen (start stop step : Int) : Nat :=
  if 0 < step then
    if start < stop then ((stop - start - 1) / step + 1).toNat else 0
  else if step < 0 then
    if stop < start then ((start - stop - 1) / (-step) + 1).toNat else 0
  else 0

/-- The list of the elements of the Python `range(start, stop, step)` (`step ≠ 0`). -/
def pyRange (start stop step : Int) : List Int :=
  (List.range (rangeLen start stop step)).map (fun i : Nat => start + i * step)

end Verif
