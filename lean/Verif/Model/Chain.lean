import Verif.Model.Executor

/-!
# Topologies made of a chain of works
-/

namespace Verif.Exec
open Verif

variable {κ α ε : Type}

/-- A work of a chain: I/O or not, and its function. -/
structure ChainWork (κ α ε : Type) where
  io : Bool
  f : κ → α → Except ε α

/-- Works of a chain, the first one reading the queue `i`; the last one has no output queue. -/
def chainWorks (i : Nat) : List (ChainWork κ α ε) → List (Work κ α ε Unit)
  | [] => []
  | [w] => [.item i none w.io w.f]
  | w :: w' :: ws => .item i (some (i + 1)) w.io w.f :: chainWorks (i + 1) (w' :: ws)

/-- A topology built by `add_queue` / `add_work` (`/repo/src/fluidimage/topologies/base.py:300-334`) whose works form
a chain, each work reading the output queue of the previous one.  This is the case of
`/repo/src/fluidimage/topologies/image2image.py:88-120` ("read_array", "im2im", "save") and of
`/repo/src/fluidimage/topologies/bos.py:107-155` without image-to-image preprocessing ("read array", "compute bos",
"save bos"). -/
def chain (ws : List (ChainWork κ α ε)) : Topology κ α ε Unit where
  nq := ws.length
  works := chainWorks 0 ws
  auxEmpty := fun _ => true

/-- Queues after the one-shot work (`fill_queue_paths`): the items are in the first queue. -/
def startQueues (items : Dict κ (Except ε α)) : Queues κ α ε := fun i => if i = 0 then items else []

end Verif.Exec
