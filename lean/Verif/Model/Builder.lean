import Verif.Py.Dict
import Verif.Py.Text

/-!
# Model of the creation of topologies, of the configuration file, of the logger and of the default limits

`/repo/src/fluidimage/topologies/base.py:107-151` (`Work.__init__`), 300-334 (`add_queue`, `add_work`),
`/repo/src/fluidimage/config.py`, `/repo/src/fluidimage/util/log.py:29-32`,
`/repo/src/fluidimage/executors/base.py:150-180`.
-/

namespace Verif.Builder
open Verif Verif.Text

/-- base.py:120-151 `Work`: the name, the input and output queues (indices) and the kind.  The function and the
parameters of the work are represented by `func`. -/
structure WorkDef (φ : Type) where
  name : List Char
  func : Option φ
  input : Option (List Nat)
  output : Option Nat
  kind : List (List Char)
deriving DecidableEq

/-- base.py:287-290: attributes `queues`, `works`, `works_dict` of a topology.  A queue is represented by its name and
whether it is a `QueueList`. -/
structure Topo (φ : Type) where
  queues : List (List Char × Bool)
  works : List (WorkDef φ)
  worksDict : Dict (List Char) (WorkDef φ)

/-- base.py:287-289 -/
def Topo.empty {φ : Type} : Topo φ := ⟨[], [], []⟩

/-- base.py:300-307 `add_queue` -/
def addQueue {φ : Type} (t : Topo φ) (name kind : List Char) : Topo φ :=
  { t with queues := t.queues ++ [(name, decide (kind = ['l', 'i', 's', 't']))] }

/-- base.py:309-334 `add_work`.  The state of the topology is returned also when an exception is raised.  The warning
when the function is `None` (319-320) is not modelled. -/
def addWork {φ : Type} (t : Topo φ) (w : WorkDef φ) : Topo φ × Option PyErr :=
  let t := { t with works := t.works ++ [w] }                       -- 330
  if w.name ∈ t.worksDict.keys then (t, some .valueError)            -- 332-333
  else ({ t with worksDict := t.worksDict.set w.name w }, none)      -- 334

/-- A constructor of topology: additions one after the other; an exception ends the constructor. -/
def addWorks {φ : Type} (t : Topo φ) : List (WorkDef φ) → Except PyErr (Topo φ)
  | [] => .ok t
  | w :: ws => match addWork t w with
    | (t, none) => addWorks t ws
    | (_, some e) => .error e

/-- A caller which catches the exceptions and goes on. -/
def addWorksCaught {φ : Type} (t : Topo φ) : List (WorkDef φ) → Topo φ
  | [] => t
  | w :: ws => addWorksCaught (addWork t w).1 ws

/-! ## Configuration file -/

/-- The Python objects which occur in `get_config`. -/
inductive Obj where
  | str (s : List Char)
  | bool (b : Bool)
  /-- a bound method, here `value.lower` (not called) -/
  | method (self : List Char)
deriving DecidableEq

/-- config.py:22-25: conversion of one value.  `value.lower in ["true", "false"]` compares the method with the two
strings. -/
def convertValue (value : List Char) : Obj :=
  if Obj.method value ∈ [Obj.str ['t', 'r', 'u', 'e'], Obj.str ['f', 'a', 'l', 's', 'e']] then
    .bool (decide (value = ['t', 'r', 'u', 'e']))
  else .str value

/-- config.py:18-28 `get_config`.  The sections of the file, as read by `ConfigParser` (not modelled): unique section
names, each with unique option names.  `none`: there is no file. -/
def getConfig (file : Option (Dict (List Char) (Dict (List Char) (List Char)))) : Dict (List Char) (Dict (List Char) Obj) :=
  match file with
  | none => []                                                                  -- 14-15
  | some sections => sections.foldl (fun d s =>
      d.set s.1 (s.2.foldl (fun e o => e.set o.1 (convertValue o.2)) [])) []     -- 18-26

/-- Truth value of a Python object (`if value:`). -/
def Obj.truthy : Obj → Bool
  | .str s => !s.isEmpty
  | .bool b => b
  | .method _ => true

/-! ## Logger -/

/-- util/log.py:31-32: the loop over `logger.handlers`, which `removeHandler` modifies.  A Python list iterator keeps
an index and stops when it is not smaller than the current length.  `fuel` bounds the number of iterations; the
iterations needed are at most the number of handlers (`C60_fuel`). -/
def resetLoop {η : Type} [DecidableEq η] : Nat → Nat → List η → List η
  | 0, _, hs => hs
  | fuel + 1, i, hs => match hs[i]? with
    | none => hs
    | some h => resetLoop fuel (i + 1) (hs.erase h)

/-- util/log.py:29-32 `reset_logger` (also executors/base.py:151-152): the handlers left. -/
def resetLogger {η : Type} [DecidableEq η] (hs : List η) : List η := resetLoop hs.length 0 hs

/-! ## Default limits -/

/-- executors/base.py:158-176: `nb_max_workers`, from the argument, the configuration file, or the number of cores. -/
def maxWorkers (arg cfg : Option Nat) (cores : Nat) : Nat :=
  match arg with
  | some n => n
  | none => match cfg with
    | some n => n
    | none => if cores < 16 then cores + 2 else cores

/-- executors/base.py:178-180: `nb_items_queue_max`. -/
def queueMax (arg : Option Nat) (workers : Nat) : Nat :=
  match arg with
  | some n => n
  | none => max (4 * workers) 8

end Verif.Builder
