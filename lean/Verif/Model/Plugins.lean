import Verif.Model.Session

/-!
# Discovery of the executors

Model of `executors/__init__.py` and of the lines 364-399 of `topologies/base.py` which use it, with the group of entry
points of `pyproject.toml` 75-87.  The packages installed in the environment are the list of the entry points of the
group `fluidimage.executors`, in the order given by `importlib.metadata.entry_points`.  The import of a module is a
parameter: it gives a module or raises.  Creation of the object executor, after line 388 of `base.py`: not here (see
`Model/Session.lean`).
-/

namespace Verif.Plugins

open Verif.Session

/-- An entry point (`importlib.metadata.EntryPoint`) of the group `fluidimage.executors`: name of an executor and full name of
a module. -/
structure EntryPoint where
  name : List Char
  value : List Char
deriving DecidableEq, Repr

/-- A module, reduced to its attribute `Executor` (a class, represented by its name) if it has one. -/
structure Module where
  executor : Option (List Char)
deriving DecidableEq, Repr

/-- `importlib.import_module`: a parameter. -/
structure Ext where
  importModule : List Char → Except PyErr Module

/-- The state of a process: entry points of the packages now installed, and the global `_entry_points`
(executors/__init__.py 71). -/
structure State where
  installed : List EntryPoint
  cache : Option (List EntryPoint)
deriving DecidableEq, Repr

/-- A new process: executors/__init__.py 71. -/
def start (installed : List EntryPoint) : State := ⟨installed, none⟩

/-- executors/__init__.py 74-85 `get_entry_points` -/
def getEntryPoints (reload : Bool) (s : State) : State × Except PyErr (List EntryPoint) :=
  -- 77-78
  let s := if s.cache = none ∨ reload = true then { s with cache := some s.installed } else s
  -- 80-85
  match s.cache with
  | none => (s, .error .runtimeError)
  | some eps => if eps = [] then (s, .error .runtimeError) else (s, .ok eps)

/-- executors/__init__.py 88-90 `get_executor_names` (a list instead of a set: only `in` is used) -/
def executorNames (s : State) : State × Except PyErr (List (List Char)) :=
  match getEntryPoints false s with
  | (s, .error e) => (s, .error e)
  | (s, .ok eps) => (s, .ok (eps.map EntryPoint.name))

/-- `EntryPoints.select(name=name)` of the standard library -/
def select (name : List Char) (eps : List EntryPoint) : List EntryPoint := eps.filter (fun e => e.name = name)

/-- executors/__init__.py 93-112 `_get_module_fullname_from_name`.  The name `logging` of line 108 is not defined in the module.
`EntryPoints.__getitem__` (line 112) takes the first entry point of this name. -/
def moduleFullname (name : List Char) (s : State) : State × Except PyErr (List Char) :=
  match getEntryPoints false s with
  | (s, .error e) => (s, .error e)
  | (s, .ok eps) =>
    match select name eps with
    | [] => (s, .error .valueError)
    | [e] => (s, .ok e.value)
    | _ :: _ :: _ => (s, .error .nameError)

/-- The argument of `import_executor_class`. -/
inductive Name where
  | str (name : List Char)
  | entryPoint (e : EntryPoint)
deriving DecidableEq, Repr

/-- executors/__init__.py 136-137 -/
def importExecutor (x : Ext) (fullname : List Char) : Except PyErr (List Char) :=
  match x.importModule fullname with
  | .error e => .error e
  | .ok m => match m.executor with
    | none => .error .attributeError
    | some c => .ok c

/-- executors/__init__.py 115-137 `import_executor_class` -/
def importClass (x : Ext) (name : Name) (s : State) : State × Except PyErr (List Char) :=
  match name with
  | .entryPoint e => (s, importExecutor x e.value)
  | .str name =>
    match moduleFullname name s with
    | (s, .error e) => (s, .error e)
    | (s, .ok fullname) => (s, importExecutor x fullname)

/-- executors/__init__.py 65-68 `supported_multi_executors` -/
def supportedMulti (linux : Bool) : List (List Char) :=
  let l := ["multi_exec_subproc".toList, "multi_exec_subproc_sync".toList]
  if linux then "multi_exec_async".toList :: "multi_exec_sync".toList :: l else l

/-- What `compute` does with its arguments: a class is instantiated, or an existing executor is used
(topologies/base.py 399). -/
inductive Chosen where
  | class (c : List Char)
  | stored (e : Nat)
deriving DecidableEq, Repr

/-- topologies/base.py 364-388 `compute`: choice of the class.  `previous`: attribute `executor` of the topology. -/
def computeClass (x : Ext) (linux : Bool) (executor : ExecArg) (sequential : Bool) (previous : Option Nat) (s : State) :
    State × Except PyErr Chosen :=
  -- 364-370
  if sequential = true ∧ executor ≠ .none ∧ executor ≠ .name seqName then (s, .error .valueError)
  else
    let executor := if sequential then .name seqName else executor
    -- 372-376
    let executor := if executor = .none then .name ((supportedMulti linux).headD []) else executor
    match executor with
    | .none => (s, .error .attributeError)
    | .object _ => match previous with
      | some e => (s, .ok (.stored e))
      | none => (s, .error .attributeError)
    | .name n =>
      -- 378-380
      match executorNames s with
      | (s, .error e) => (s, .error e)
      | (s, .ok names) =>
        if n ∉ names then (s, .error .notImplementedError)
        else
          -- 388
          match importClass x (.str n) s with
          | (s, .error e) => (s, .error e)
          | (s, .ok c) => (s, .ok (.class c))

/-! ## A process -/

/-- What can happen in a process: packages are installed or removed, or one of the functions is called. -/
inductive Event where
  | install (installed : List EntryPoint)
  | entryPoints (reload : Bool)
  | names
  | import (name : Name)
  | compute (executor : ExecArg) (sequential : Bool) (previous : Option Nat)
deriving DecidableEq

/-- One event.  Simplification: the exceptions are caught by the caller. -/
def step (x : Ext) (linux : Bool) (s : State) : Event → State
  | .install l => { s with installed := l }
  | .entryPoints r => (getEntryPoints r s).1
  | .names => (executorNames s).1
  | .import n => (importClass x n s).1
  | .compute e q p => (computeClass x linux e q p s).1

/-- A history of a process. -/
def run (x : Ext) (linux : Bool) (s : State) : List Event → State
  | [] => s
  | e :: es => run x linux (step x linux s e) es

/-! ## fluidimage alone -/

/-- pyproject.toml 75-87: the entry points of fluidimage. -/
def builtin : List EntryPoint :=
  [("exec_sequential", "fluidimage.executors.exec_sequential"),
   ("exec_async", "fluidimage.executors.exec_async"),
   ("exec_async_sequential", "fluidimage.executors.exec_async_sequential"),
   ("exec_async_seq_for_multi", "fluidimage.executors.exec_async_seq_for_multi"),
   ("exec_seq_for_multi", "fluidimage.executors.exec_seq_for_multi"),
   ("multi_exec_async", "fluidimage.executors.multi_exec_async"),
   ("multi_exec_sync", "fluidimage.executors.multi_exec_sync"),
   ("multi_exec_subproc", "fluidimage.executors.multi_exec_subproc"),
   ("multi_exec_subproc_sync", "fluidimage.executors.multi_exec_subproc_sync"),
   ("exec_async_multi", "fluidimage.executors.exec_async_multiproc"),
   ("exec_async_servers", "fluidimage.executors.exec_async_servers"),
   ("exec_async_servers_threading", "fluidimage.executors.exec_async_servers_threading")].map
    (fun p => ⟨p.1.toList, p.2.toList⟩)

/-- The class `Executor` of each module of `executors/`: exec_async.py 345, exec_async_multiproc.py 139,
exec_async_seq_for_multi.py 103, exec_async_sequential.py 82, exec_async_servers.py 264, exec_async_servers_threading.py 19,
exec_seq_for_multi.py 17, exec_sequential.py 88, multi_exec_async.py 196, multi_exec_subproc.py 124,
multi_exec_subproc_sync.py 16, multi_exec_sync.py 19. -/
def modules : List (List Char × List Char) :=
  [("fluidimage.executors.exec_async", "ExecutorAsync"),
   ("fluidimage.executors.exec_async_multiproc", "ExecutorAsyncMultiproc"),
   ("fluidimage.executors.exec_async_seq_for_multi", "ExecutorAsyncSeqForMulti"),
   ("fluidimage.executors.exec_async_sequential", "ExecutorAsyncSequential"),
   ("fluidimage.executors.exec_async_servers", "ExecutorAsyncServers"),
   ("fluidimage.executors.exec_async_servers_threading", "ExecutorAsyncServersThreading"),
   ("fluidimage.executors.exec_seq_for_multi", "ExecutorSeqForMulti"),
   ("fluidimage.executors.exec_sequential", "ExecutorSequential"),
   ("fluidimage.executors.multi_exec_async", "MultiExecutorAsync"),
   ("fluidimage.executors.multi_exec_subproc", "MultiExecutorSubproc"),
   ("fluidimage.executors.multi_exec_subproc_sync", "MultiExecutorSubprocSync"),
   ("fluidimage.executors.multi_exec_sync", "MultiExecutorSync")].map (fun p => (p.1.toList, p.2.toList))

end Verif.Plugins
