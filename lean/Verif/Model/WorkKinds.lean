import Verif.Model.Graphviz

/-!
# Model of the treatment of the works according to their kinds

`/repo/src/fluidimage/topologies/base.py`: 120-151 (`Work.__init__`), 173-177 (`prepare_argument`);
`/repo/src/fluidimage/executors/base.py`: 195-200 (the works executed by the executors), 309-318 (`exec_one_shot_works`);
`/repo/src/fluidimage/executors/exec_sequential.py`: 28-44; `/repo/src/fluidimage/executors/exec_async.py`: 118-164
(`define_functions`); `/repo/src/fluidimage/util/util.py`: 124-130 (`str_short`).

The kinds and their tests (`"io" in work.kind`) are those of `Model/Graphviz.lean`.  The state changed by the functions of
the works is of any type `σ`.
-/

namespace Verif.WorkKinds
open Verif Verif.Graphviz

/-- The function of a work: a method bound to an object (it has the attribute `__func__`), or another callable object: a
function, a class, the method `__call__` of an object, a static method. -/
inductive Callable where
  | bound
  | other
deriving DecidableEq

/-- A work: its name, its kind, what is its function, and the effect of a call `func(input_queue, output_queue)`. -/
structure KWork (σ : Type) where
  name : Txt
  kind : Kind
  callable : Callable
  call : σ → Except PyErr σ

variable {σ : Type}

/-- topologies/base.py 146-151 -/
def eatKeyValue (k : Kind) : Bool :=
  match k with
  | .none => false
  | .text s => decide (s = "eat key value".toList)
  | .seq l => decide ("eat key value".toList ∈ l)

/-- topologies/base.py 173-177 `prepare_argument`: the couple (first case) or the object. -/
def prepareArgument {κ α : Type} (k : Kind) (key : κ) (obj : α) : (κ × α) ⊕ α :=
  if eatKeyValue k then .inl (key, obj) else .inr obj

/-- executors/base.py 195-200: the works which are executed by the executor. -/
def executorWorks (works : List (KWork σ)) : List (KWork σ) := works.filter (fun w => !w.kind.has "one shot".toList)

/-- executors/base.py 309-318 `exec_one_shot_works`: the state and the names of the works which have been called (also
when an exception is raised); `work.func_or_cls.__func__` is read before the call (316).  The names given to `str_short` are
texts: it does not fail. -/
def execOneShot : List (KWork σ) → σ → Option PyErr × σ × List Txt
  | [], s => (none, s, [])
  | w :: ws, s =>
    if w.kind.has "one shot".toList then
      match w.callable with
      | .other => (some .attributeError, s, [])
      | .bound =>
        match w.call s with
        | .error e => (some e, s, [w.name])
        | .ok s2 =>
          match execOneShot ws s2 with
          | (r, s3, names) => (r, s3, w.name :: names)
    else execOneShot ws s

/-- How an executor treats a work: it calls it with its queues, or for each item, with the other works of the same class
(input/output or computation). -/
inductive Treatment where
  | queues
  | itemIo
  | itemCpu
deriving DecidableEq

/-- exec_async.py 118-164 `define_functions`. -/
def asyncTreatment (k : Kind) : Treatment :=
  if k.has "global".toList then .queues
  else if k.has "io".toList || decide (k = .text "io".toList) then .itemIo
  else .itemCpu

/-- exec_sequential.py 31-44: the works for the items are all executed in the same way. -/
def seqTreatment (k : Kind) : Treatment := if k.has "global".toList then .queues else .itemCpu

/-- `work.input_queue`: `None`, a queue or a tuple of queues, with the numbers of items. -/
inductive Input where
  | none
  | one (n : Nat)
  | tuple (l : List Nat)
deriving DecidableEq

/-- `not work.input_queue` -/
def Input.falsy : Input → Bool
  | .none => true
  | .one n => decide (n = 0)
  | .tuple l => l.isEmpty

/-- exec_async.py 128-131: the condition under which a work of kind "global" waits. -/
def asyncWaits (i : Input) : Bool :=
  (match i with
   | .tuple l => l.all (fun n => decide (n = 0))
   | _ => false) || i.falsy

/-- exec_sequential.py 32-38: in a round of the loop, a work of kind "global" is called unless its output queue (`none`
if there is none, otherwise its number of items) is full. -/
def seqCalls (queueMax : Nat) (out : Option Nat) : Bool :=
  match out with
  | none => true
  | some n => !decide (n > queueMax)

end Verif.WorkKinds
