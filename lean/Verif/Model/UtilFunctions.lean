import Verif.Py.Basic

/-!
# Model of the utility functions

`/repo/src/fluidimage/util/util.py`: 44-60 (`imread`), 81-92 (`cstring`), 102-121 (`is_memory_full`), 124-130 (`str_short`).

The reading of the files (`fluiddyn.io.image.imread`), the system (`psutil`), the codes of the colours of the terminal and
`IPython.lib.pretty.pretty` are given.  Strings are lists of characters.
-/

namespace Verif.UtilFunctions
open Verif

abbrev Txt := List Char

/-- A class of exceptions: its name, whether it derives from `Exception` (`KeyboardInterrupt` and `SystemExit` do not), and
whether its constructor can be called with one text (`UnicodeDecodeError` takes five arguments). -/
structure ErrClass where
  name : Txt
  isException : Bool
  takesOneText : Bool
deriving DecidableEq

/-- The class `TypeError`. -/
def typeErrorClass : ErrClass := ⟨"TypeError".toList, true, true⟩

/-- An exception: its class and the texts given to the constructor. -/
structure Err where
  cls : ErrClass
  args : List Txt
deriving DecidableEq

/-- The message of Python when a constructor gets a wrong number of arguments (the class is named, the value is not). -/
def wrongCall (c : ErrClass) : Err := ⟨typeErrorClass, [c.name ++ " takes another number of arguments".toList]⟩

/-- A path given as a text or as an object `Path`. -/
inductive PathArg where
  | text (s : Txt)
  | path (s : Txt)
deriving DecidableEq

/-- util.py 49-50 -/
def PathArg.str : PathArg → Txt
  | .text s => s
  | .path s => s

/-- util.py 44-60 `imread`; `read` is `fluiddyn.io.image.imread`. -/
def imread {α : Type} (read : Txt → Except Err α) (p : PathArg) : Except Err α :=
  match read p.str with
  | .ok a => .ok a
  | .error e =>
    if e.cls.isException then
      if e.cls.takesOneText then .error ⟨e.cls, [p.str]⟩                            -- 57
      else .error (wrongCall e.cls)
    else .error e

/-- util.py 115: the percentage of the memory which is used, and the available memory in bytes. -/
def isMemoryFull (percent : Rat) (available : Nat) : Bool :=
  decide (percent > 90) || decide (available < 500 * 1024 ^ 2)

/-- What `getattr(obj, "__module__")` and `getattr(obj, "__name__")` give: nothing (`AttributeError`), `None`, a text. -/
inductive AttrVal where
  | absent
  | none
  | text (s : Txt)
deriving DecidableEq

/-- util.py 124-130 `str_short`; the left operand is evaluated first, `None + "."` is a `TypeError`. -/
def strShort (module name : AttrVal) (pretty : Txt) : Except PyErr Txt :=
  match module with
  | .absent => .ok pretty
  | .none => .error .typeError
  | .text m =>
    match name with
    | .absent => .ok pretty
    | .none => .error .typeError
    | .text n => .ok (m ++ ['.'] ++ n)

/-- `" ".join(args)` -/
def joinSpace : List Txt → Txt
  | [] => []
  | [a] => a
  | a :: b :: l => a ++ ' ' :: joinSpace (b :: l)

/-- util.py 81-92 `cstring`; `color` is the keyword argument if it is given, `codes` the dictionary of the colours. -/
def cstring (codes : Txt → Option Txt) (args : List Txt) (color : Option Txt) : Except PyErr Txt :=
  match codes (color.getD "OKBLUE".toList) with
  | none => .error .keyError
  | some c =>
    match codes "ENDC".toList with
    | none => .error .keyError
    | some e => .ok (c ++ joinSpace args ++ e)

end Verif.UtilFunctions
