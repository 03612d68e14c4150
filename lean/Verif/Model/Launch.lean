import Verif.Py.Basic

/-!
# Model of the launchers of the topologies and of the execution of a parameter file

`/repo/src/fluidimage/topologies/launcher.py`, `/repo/src/fluidimage/run_from_xml.py`, with the signatures of
`topologies/piv.py:80`, `topologies/preproc.py:170-172` and `topologies/base.py:336-344`.

The values are of any type.  `ParamContainer` (package fluiddyn) is represented by lists of attributes: an attribute
which does not exist cannot be set (`AttributeError`).  The reading of the XML file is not modelled.
-/

namespace Verif.Launch
open Verif

abbrev Name := List Char

/-- Keyword arguments, or attributes of a `ParamContainer`. -/
abbrev Kw (α : Type) := List (Name × α)

/-- The parameters of a Python function, with their default values (all can be given by position or by keyword). -/
abbrev Sig (α : Type) := List (Name × Option α)

variable {α : Type}

/-- `kw[k]` -/
def kwGet (kw : Kw α) (k : Name) : Option α := (kw.find? (fun p => decide (p.1 = k))).map (·.2)

/-- `inspect.getfullargspec(method).args` -/
def argNames (s : Sig α) : List Name := s.map (·.1)

/-- `inspect.getfullargspec(method).defaults`: the values for the last arguments, `None` if there is none. -/
def argDefaults (s : Sig α) : Option (List α) :=
  match s.filterMap (·.2) with
  | [] => none
  | l => some l

/-- launcher.py:25-34 `_get_args_bound_method`: `None[1:]` is a `TypeError`. -/
def getArgs (s : Sig α) : Except PyErr (List Name × List α) :=
  match argDefaults s with
  | none => .error .typeError
  | some l => .ok ((argNames s).drop 2, l.drop 1)

/-- launcher.py:50-51, 58-59: the attributes created from a signature. -/
def offered (s : Sig α) : Except PyErr (Kw α) :=
  match getArgs s with
  | .error e => .error e
  | .ok (keys, values) => .ok (keys.zip values)

/-- launcher.py:43-75 `create_default_params`: the attributes of `params.topology` and `params.topology.compute`. -/
def createDefaultParams (init compute : Sig α) : Except PyErr (Kw α × Kw α) :=
  match offered init with
  | .error e => .error e
  | .ok topo =>
    match offered compute with
    | .error e => .error e
    | .ok comp => .ok (topo, comp)

/-- `params.key = value` for a `ParamContainer`. -/
def setAttr (kw : Kw α) (k : Name) (v : α) : Except PyErr (Kw α) :=
  if (kw.map (·.1)).contains k then .ok (kw.map (fun p => if p.1 = k then (p.1, v) else p)) else .error .attributeError

/-- The values of the parameters for a call with keyword arguments, when all the keywords are parameters. -/
def bindAll (kw : Kw α) : Sig α → Except PyErr (Kw α)
  | [] => .ok []
  | (k, d) :: rest =>
    match (kwGet kw k).or d with
    | none => .error .typeError
    | some v =>
      match bindAll kw rest with
      | .error e => .error e
      | .ok l => .ok ((k, v) :: l)

/-- A Python call `f(**kw)` (`s`: the parameters which are not given by position). -/
def bindCall (s : Sig α) (kw : Kw α) : Except PyErr (Kw α) :=
  if kw.all (fun p => (argNames s).contains p.1) then bindAll kw s else .error .typeError

/-- launcher.py:77-86: the values received by the constructor (without `self` and `params`) and by the method `compute`
of the topology, for given attributes of the parameters. -/
def launch (init compute : Sig α) (topo comp : Kw α) : Except PyErr (Kw α × Kw α) :=
  match bindCall (init.drop 2) topo with
  | .error e => .error e
  | .ok a =>
    match bindCall (compute.drop 1) comp with
    | .error e => .error e
    | .ok b => .ok (a, b)

/-! ## `run_from_xml` -/

/-- `params._value_text`: absent, `None`, a text or a dictionary. -/
inductive ValueText where
  | absent
  | none
  | text
  | dict (d : Kw Name)
deriving DecidableEq, Repr

/-- What matters in the parameters read in the file. -/
structure Params (α : Type) where
  /-- `params.Action.ActionName` if it exists -/
  action : Option Name
  valueText : ValueText
  /-- `params.saving.how` if it exists -/
  how : Option α
  /-- `params.compute_kwargs` if it exists -/
  computeKwargs : Option (Kw α)

/-- `params._value_text[key]` -/
def valueTextGet (v : ValueText) (key : Name) : Except PyErr Name :=
  match v with
  | .absent => .error .attributeError
  | .none => .error .typeError
  | .text => .error .typeError
  | .dict d =>
    match kwGet d key with
    | .none => .error .keyError
    | some t => .ok t

/-- run_from_xml.py:55-67: the program (`None` if it is not known). -/
def program (p : Params α) : Except PyErr (Option Name) :=
  match p.action with
  | some _ => .ok (some "uvmat".toList)
  | none =>
    match valueTextGet p.valueText "program".toList with
    | .error .attributeError => .ok none
    | .error .keyError => .ok none
    | .error e => .error e
    | .ok t => .ok (some t)

/-- What is executed: the class, the mode of saving of its parameters, and the values received by `compute`. -/
structure Run (α : Type) where
  module : Name
  cls : Name
  how : Option α
  compute : Kw α
deriving DecidableEq, Repr

/-- run_from_xml.py:37-42: `--mode` (ignored if there is no `params.saving`). -/
def setMode (mode : Option α) (how : Option α) : Option α :=
  match mode, how with
  | none, how => how
  | some m, some _ => some m
  | some _, none => none

/-- run_from_xml.py:94-105, for a class whose method `compute` has the parameters `s` (without `self`). -/
def runAction (s : Sig α) (module cls : Name) (how : Option α) (kwargs : Option (Kw α)) : Except PyErr (Run α) :=
  match bindCall s (kwargs.getD []) with
  | .error e => .error e
  | .ok b => .ok ⟨module, cls, how, b⟩

/-- run_from_xml.py:45-106 `main`.  `classes module name`: the signature of the method `compute` (without `self`) of the
class, or the error of the import; `actions`: the keys of `actions_classes`; `uvmat`: `cls.params_from_uvmat_xml` gives
parameters or an error (only `saving.how` matters here; they have no `compute_kwargs`).  The name of the action is not
changed by `tidy_uvmat_instructions`. -/
def main (classes : Name → Name → Except PyErr (Sig α)) (actions : List Name) (uvmat : Except PyErr (Option α))
    (mode : Option α) (p : Params α) : Except PyErr (Run α) :=
  match program p with
  | .error e => .error e
  | .ok none => .error .valueError
  | .ok (some prog) =>
    if prog = "uvmat".toList then
      match p.action with
      | none => .error .attributeError
      | some action =>
        if actions.contains action then
          match uvmat with
          | .error e => .error e
          | .ok how => runAction [] "fluidimage.uvmat".toList action (setMode mode how) none
        else .error .notImplementedError
    else if prog = "fluidimage".toList then
      match valueTextGet p.valueText "module".toList with
      | .error e => .error e
      | .ok module =>
        match valueTextGet p.valueText "class".toList with
        | .error e => .error e
        | .ok cls =>
          match classes module cls with
          | .error e => .error e
          | .ok s => runAction s module cls (setMode mode p.how) p.computeKwargs
    else .error .valueError

end Verif.Launch
