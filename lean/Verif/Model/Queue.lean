import Verif.Py.Dict

/-!
# Model of `topologies/base.py`, class `Queue`
-/

namespace Verif.Queue
open Verif

variable {κ α : Type} [DecidableEq κ]

/-- `/repo/src/fluidimage/topologies/base.py:200-202` `Queue.pop_first_item`: `self.popitem(last=False)`. -/
def popFirstItem (q : Dict κ α) : Except PyErr ((κ × α) × Dict κ α) := q.popFirst

/-- `/repo/src/fluidimage/topologies/base.py:204-209` `Queue.is_name_in_values`, for values which are
sequences of names. -/
def isNameInValues {ν : Type} [DecidableEq ν] (q : Dict κ (List ν)) (name : ν) : Bool :=
  match q with
  | [] => false
  | (_, names) :: q => if name ∈ names then true else isNameInValues q name

/-- `/repo/src/fluidimage/topologies/base.py:191-198` `Queue.__copy__`: a new queue filled item by item. -/
def copy (q : Dict κ α) : Dict κ α := q.foldl (fun new kv => Dict.set new kv.1 kv.2) []

/-- The operations used by works and executors on a queue: `q[key] = obj`, `q.pop_first_item()`,
`q.pop(key)` / `del q[key]`. -/
inductive Op (κ α : Type) where
  | set (k : κ) (v : α)
  | popFirst
  | del (k : κ)

/-- Result of one operation: new content and output (`KeyError` leaves the queue unchanged). -/
def apply (q : Dict κ α) : Op κ α → Dict κ α × Except PyErr (Option (κ × α))
  | .set k v => (q.set k v, .ok none)
  | .popFirst => match popFirstItem q with
    | .ok (kv, q') => (q', .ok (some kv))
    | .error e => (q, .error e)
  | .del k => match q.get? k with
    | some v => (q.erase k, .ok (some (k, v)))
    | none => (q, .error .keyError)

/-- Content and outputs after a sequence of operations. -/
def run (q : Dict κ α) : List (Op κ α) → Dict κ α × List (Except PyErr (Option (κ × α)))
  | [] => (q, [])
  | op :: ops =>
    let r := apply q op
    let r' := run r.1 ops
    (r'.1, r.2 :: r'.2)

end Verif.Queue
