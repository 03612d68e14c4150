import Verif.Model.Chain

/-!
# Specification: what has to happen to one item in a chain of works

Written without queues, executors or schedules: the works are applied one after the other to the item.
-/

namespace Verif.Spec
open Verif.Exec

variable {κ α ε : Type}

/-- The events of the item of key `k` arriving with the value (or error) `r` at the work number `w`, the remaining
works being `ws`.

* Value: the function is called; if it raises, one report is made for this work and key, and the item goes on as
  an error.
* Error: the item is not processed; the last work logs that it can not be done. -/
def itemEvents (k : κ) : Nat → List (ChainWork κ α ε) → Except ε α → List (Event κ α ε)
  | _, [], _ => []
  | w, c :: ws, .ok v =>
    match c.f k v with
    | .ok r => .call w k v :: itemEvents k (w + 1) ws (.ok r)
    | .error e => .call w k v :: .failed w k e :: itemEvents k (w + 1) ws (.error e)
  | w, _ :: ws, .error e =>
    if ws = [] then [.dropped w k e] else itemEvents k (w + 1) ws (.error e)

/-- The events of a whole run, item after item. -/
def allEvents (ws : List (ChainWork κ α ε)) (items : List (κ × Except ε α)) : List (Event κ α ε) :=
  items.flatMap (fun kv => itemEvents kv.1 0 ws kv.2)

/-- The key of an event. -/
def keyOf : Event κ α ε → κ
  | .call _ k _ => k
  | .failed _ k _ => k
  | .dropped _ k _ => k
  | .note _ k _ => k

/-- The events of one key, in order. -/
def historyOf [DecidableEq κ] (k : κ) (log : List (Event κ α ε)) : List (Event κ α ε) :=
  log.filter (fun e => decide (keyOf e = k))

end Verif.Spec
