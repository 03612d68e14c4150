import Verif.Py.Dict
import Verif.Model.PreprocTools

/-!
# Model of the parameters of the preprocessing tools

`/repo/src/fluidimage/works/preproc/toolbox.py` 34-119: parameters made from the signatures of the functions of a backend, changed by the
user, and used to call the tools.

`ParamContainer` (fluiddyn) is modelled from its documentation: the values given to `_set_child` are stored without copy, an unknown name
is refused with `AttributeError`.  The documentations of the tools (59-70) are not modelled.
-/

namespace Verif.PreprocParams
open Verif
open Verif.PreprocTools (Err)

/-- Values of parameters. -/
inductive Val where
  | none
  | bool (b : Bool)
  | int (z : Int)
  | rat (q : ℚ)
  | str (s : String)
  | pair (a b : Int)
deriving DecidableEq

/-- `bool(v)` (toolbox.py 109). -/
def Val.truthy : Val → Bool
  | .none => false
  | .bool b => b
  | .int z => z != 0
  | .rat q => q != 0
  | .str s => s != ""
  | .pair _ _ => true

/-- A function of a backend: its arguments with their default values, and what it computes from the image and the values of the other
arguments (in the order of the signature). -/
structure Func (ι : Type) where
  args : Dict String (Option Val)
  body : ι → Dict String Val → Except Err ι

/-- `inspect.getcallargs(func)` (47): `TypeError` for an argument without default value. -/
def callArgs : Dict String (Option Val) → Except Err (Dict String Val)
  | [] => .ok []
  | (_, Option.none) :: _ => .error .typeError
  | (a, some v) :: l => match callArgs l with
    | .error e => .error e
    | .ok d => .ok ((a, v) :: d)

/-- A call `func(img, **kwargs)` (117), the image is the argument `img`. -/
def fillArgs (kwargs : Dict String Val) : Dict String (Option Val) → Except Err (Dict String Val)
  | [] => .ok []
  | (a, dflt) :: l =>
    if a = "img" then fillArgs kwargs l
    else match (match Dict.get? kwargs a with | some v => some v | Option.none => dflt) with
      | Option.none => .error .typeError
      | some v => match fillArgs kwargs l with
        | .error e => .error e
        | .ok d => .ok ((a, v) :: d)

def Func.call {ι : Type} (f : Func ι) (img : ι) (kwargs : Dict String Val) : Except Err ι :=
  if kwargs.any (fun kv => kv.1 == "img" || !(Dict.keys f.args).contains kv.1) then .error .typeError
  else match fillArgs kwargs f.args with
    | .error e => .error e
    | .ok d => f.body img d

/-- `params.tools`: `available = none` is the list `__all__` of the module of the backend (37, 40: the same object), otherwise a list which
has been assigned by the user. -/
structure Params where
  available : Option (List String)
  sequence : Option (List String)
  children : Dict String (Dict String Val)

/-- 43-57: the children. -/
def createChildren {ι : Type} (funcs : String → Option (Func ι)) : List String → Except Err (Dict String (Dict String Val))
  | [] => .ok []
  | tool :: l => match funcs tool with
    | Option.none => .error .keyError                                   -- 44
    | some f => match callArgs f.args with                              -- 47
      | .error e => .error e
      | .ok d => match createChildren funcs l with
        | .error e => .error e
        | .ok ch => .ok ((tool, Dict.set (Dict.erase d "img") "enable" (.bool false)) :: ch)   -- 48-57

/-- 34-57 `create_default_params` -/
def createDefault {ι : Type} (funcs : String → Option (Func ι)) (all : List String) : Except Err Params :=
  match createChildren funcs all with
  | .error e => .error e
  | .ok ch => .ok ⟨Option.none, Option.none, ch⟩

/-- 107-117: the loop over the tools; `cls` is the dictionary of the class of the object (116-117). -/
def applyLoop {ι : Type} (cls : String → Option (Func ι)) (children : Dict String (Dict String Val)) : List String → ι → Except Err ι
  | [], img => .ok img
  | tool :: l, img => match Dict.get? children tool with
    | Option.none => .error .attributeError                             -- 108
    | some d => match Dict.get? d "enable" with
      | Option.none => .error .attributeError
      | some e =>
        if e.truthy then                                                -- 109
          match cls tool with
          | Option.none => .error .keyError                             -- 117
          | some f => match f.call img (Dict.erase d "enable") with     -- 111-117
            | .error e => .error e
            | .ok img => applyLoop cls children l img
        else applyLoop cls children l img

/-- 92-119 `apply`; `all` is the list `__all__` at the time of the call. -/
def apply {ι : Type} (cls : String → Option (Func ι)) (all : List String) (p : Params) (img : ι) : Except Err ι :=
  match p.sequence with
  | some s => applyLoop cls p.children s img
  | Option.none => match p.available with                               -- 105
    | some l => applyLoop cls p.children l img
    | Option.none => applyLoop cls p.children all img

/-- 72-85, 122-145: dictionary of the class `PreprocToolsPy` (or `PreprocToolsCV`), made when the module is imported with the list at this
time. -/
def classDict {ι : Type} (funcs : String → Option (Func ι)) (all : List String) (tool : String) : Option (Func ι) :=
  if tool ∈ all then funcs tool else Option.none

/-! ## A Python process -/

/-- The list `__all__` of the module and the objects created. -/
structure World where
  all : List String
  objs : List Params

inductive Op where
  /-- `params = Work.create_default_params()` -/
  | create
  /-- `params.tools[tool].arg = v` for the `i`th object -/
  | set (i : ℕ) (tool arg : String) (v : Val)
  /-- `params.tools.sequence = s` -/
  | setSequence (i : ℕ) (s : Option (List String))
  /-- `params.tools.available_tools = l` -/
  | setAvailable (i : ℕ) (l : List String)
  /-- the list `params.tools.available_tools` is modified in place (`remove`, `append`, `sort`...) and becomes `l` -/
  | editAvailable (i : ℕ) (l : List String)

/-- `params.tools[tool].arg = v` -/
def Params.set (p : Params) (tool arg : String) (v : Val) : Params × Option Err :=
  match Dict.get? p.children tool with
  | Option.none => (p, some .attributeError)
  | some d => match Dict.get? d arg with
    | Option.none => (p, some .attributeError)
    | some _ => ({ p with children := Dict.set p.children tool (Dict.set d arg v) }, Option.none)

/-- One operation, and the exception which it raises. -/
def step {ι : Type} (funcs : String → Option (Func ι)) (w : World) : Op → World × Option Err
  | .create => match createDefault funcs w.all with
    | .error e => (w, some e)
    | .ok p => ({ w with objs := w.objs ++ [p] }, Option.none)
  | .set i tool arg v => match w.objs[i]? with
    | Option.none => (w, Option.none)
    | some p => ({ w with objs := w.objs.set i (p.set tool arg v).1 }, (p.set tool arg v).2)
  | .setSequence i s => match w.objs[i]? with
    | Option.none => (w, Option.none)
    | some p => ({ w with objs := w.objs.set i { p with sequence := s } }, Option.none)
  | .setAvailable i l => match w.objs[i]? with
    | Option.none => (w, Option.none)
    | some p => ({ w with objs := w.objs.set i { p with available := some l } }, Option.none)
  | .editAvailable i l => match w.objs[i]? with
    | Option.none => (w, Option.none)
    | some p => match p.available with
      | some _ => ({ w with objs := w.objs.set i { p with available := some l } }, Option.none)
      | Option.none => ({ w with all := l }, Option.none)

/-- A history. -/
def run {ι : Type} (funcs : String → Option (Func ι)) (w : World) (h : List Op) : World :=
  h.foldl (fun w op => (step funcs w op).1) w

end Verif.PreprocParams
