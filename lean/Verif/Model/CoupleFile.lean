import Verif.Model.TryWork

/-!
# Model of the couple of images which is written in a file of results

`/repo/src/fluidimage/data_objects/piv.py` 127-135, 162-166 (`read_images`, `get_arrays`), 168-204 (`ArrayCouple.save`, `_load`),
320-340 (`HeavyPIVResults.get_images`, `display`), `/repo/src/fluidimage/util/util.py` 130-135 (`safe_eval`).

The names and the paths are written as texts with `repr` and read with the evaluator of simpleeval.  `repr` of a text is the one of CPython
(`unicode_repr`): the choice of the quotes and the escape sequences; `printable` is `str.isprintable` for one character out of ASCII.
Of the evaluator, only the texts with the escape sequences of `repr`, the tuples of texts and `None` are modelled (everything else is an error).
The bytes of the file (`encode`, `decode`) are not modelled; a character is a Unicode scalar value (no lone surrogate).
-/

namespace Verif.CoupleFile
open Verif Verif.ResultsFiles Verif.TryWork Verif.PivGrid Verif.Mask

/-! ## `repr` -/

/-- A lowercase hexadecimal digit. -/
def hexDigit (n : Nat) : Char := if n < 10 then Char.ofNat (48 + n) else Char.ofNat (87 + n)

/-- `n` with `w` hexadecimal digits. -/
def toHex : Nat → Nat → Txt
  | 0, _ => []
  | w + 1, n => toHex w (n / 16) ++ [hexDigit (n % 16)]

/-- The quotes are simple, unless there are simple quotes and no double quotes in the text. -/
def quote (s : Txt) : Char := if '\'' ∈ s ∧ '"' ∉ s then '"' else '\''

/-- One character in the text given by `repr`. -/
def escape (printable : Char → Bool) (q c : Char) : Txt :=
  if c = q ∨ c = '\\' then ['\\', c]
  else if c = '\t' then ['\\', 't']
  else if c = '\n' then ['\\', 'n']
  else if c = '\r' then ['\\', 'r']
  else if c.toNat < 32 ∨ c.toNat = 127 then '\\' :: 'x' :: toHex 2 c.toNat
  else if c.toNat < 127 ∨ printable c = true then [c]
  else if c.toNat < 256 then '\\' :: 'x' :: toHex 2 c.toNat
  else if c.toNat < 65536 then '\\' :: 'u' :: toHex 4 c.toNat
  else '\\' :: 'U' :: toHex 8 c.toNat

/-- `repr(text)` -/
def reprText (printable : Char → Bool) (s : Txt) : Txt :=
  quote s :: (s.flatMap (escape printable (quote s)) ++ [quote s])

/-- The elements of a tuple, with ", " between them, and ")". -/
def reprItems (printable : Char → Bool) : List Txt → Txt
  | [] => [')']
  | [s] => reprText printable s ++ [')']
  | s :: t :: l => reprText printable s ++ ',' :: ' ' :: reprItems printable (t :: l)

/-- `repr(tuple)` -/
def reprTuple (printable : Char → Bool) : List Txt → Txt
  | [s] => '(' :: (reprText printable s ++ [',', ')'])
  | l => '(' :: reprItems printable l

/-! ## Evaluation -/

/-- The value of a hexadecimal digit. -/
def unhex (c : Char) : Option Nat :=
  if 48 ≤ c.toNat ∧ c.toNat ≤ 57 then some (c.toNat - 48)
  else if 97 ≤ c.toNat ∧ c.toNat ≤ 102 then some (c.toNat - 87)
  else if 65 ≤ c.toNat ∧ c.toNat ≤ 70 then some (c.toNat - 55)
  else none

/-- Where the reading of a text is: between two characters, after a backslash, or in a number (the number of digits which have still to be
read, and the value of those which have been read). -/
inductive Reading where
  | normal
  | backslash
  | hex (left value : Nat)
deriving DecidableEq

/-- The character of a simple escape sequence. -/
def simpleEscape (c : Char) : Option Char :=
  if c = '\\' ∨ c = '\'' ∨ c = '"' then some c
  else if c = 'n' then some '\n'
  else if c = 't' then some '\t'
  else if c = 'r' then some '\r'
  else none

/-- The number of digits of a numeric escape sequence. -/
def digits (c : Char) : Option Nat :=
  if c = 'x' then some 2 else if c = 'u' then some 4 else if c = 'U' then some 8 else none

/-- `text`: what has been read; the text and what follows the final quote. -/
def readText (q : Char) : Reading → Txt → Txt → Option (Txt × Txt)
  | _, _, [] => none
  | .normal, text, c :: l =>
    if c = q then some (text, l)
    else if c = '\\' then readText q .backslash text l
    else if c = '\n' ∨ c = '\r' then none
    else readText q .normal (text ++ [c]) l
  | .backslash, text, c :: l =>
    match digits c with
    | some n => readText q (.hex n 0) text l
    | none => match simpleEscape c with
      | some d => readText q .normal (text ++ [d]) l
      | none => none
  | .hex left value, text, c :: l =>
    match unhex c with
    | none => none
    | some d =>
      if left ≤ 1 then readText q .normal (text ++ [Char.ofNat (value * 16 + d)]) l
      else readText q (.hex (left - 1) (value * 16 + d)) text l

def evalText : Txt → Option (Txt × Txt)
  | [] => none
  | c :: l => if c = '\'' ∨ c = '"' then readText c .normal [] l else none

def skip (l : Txt) : Txt := l.dropWhile (· = ' ')

/-- The texts up to ")": are they followed by a comma, and what is after ")". -/
def evalItems : Nat → Txt → Option (List Txt × Bool × Txt)
  | 0, _ => none
  | f + 1, l =>
    if l.head? = some ')' then some ([], true, l.drop 1)
    else match evalText l with
      | none => none
      | some (s, r) => match skip r with
        | [] => none
        | c :: r' =>
          if c = ')' then some ([s], false, r')
          else if c = ',' then match evalItems f (skip r') with
            | none => none
            | some (ss, t, r'') => some (s :: ss, t, r'')
          else none

inductive Value where
  | none
  | text (s : Txt)
  | tuple (l : List Txt)
deriving DecidableEq

/-- util.py 133-135 `safe_eval(source)`; `SyntaxError` is a `ValueError` in the model. -/
def safeEval (source : Txt) : Except PyErr Value :=
  if source = "None".toList then .ok .none
  else match source with
    | [] => .error .valueError
    | c :: l =>
      if c = '(' then match evalItems (l.length + 1) l with
        | some (ss, t, []) => match ss, t with
          | [s], false => .ok (.text s)
          | ss, _ => .ok (.tuple ss)
        | _ => .error .valueError
      else match evalText (c :: l) with
        | some (s, []) => .ok (.text s)
        | _ => .error .valueError

/-! ## The couple -/

/-- The group "couple" of a file. -/
structure Stored where
  names : Txt
  paths : Txt
  shape : Nat × Nat

/-- piv.py 168-183 `save`; the paths are `None` for arrays which are not in files. -/
def store (printable : Char → Bool) (c : Couple) : Stored where
  names := reprTuple printable c.names
  paths := match c.paths with
    | none => "None".toList
    | some ps => reprTuple printable ps
  shape := c.shape

/-- A couple which has been read. -/
structure Loaded where
  names : List Txt
  paths : Option (List Txt)
  shape : Nat × Nat
  paramsMask : Option MaskParams

/-- 197 `self.paths = safe_eval(paths)` -/
def loadPaths (source : Txt) : Except PyErr (Option (List Txt)) :=
  match safeEval source with
  | .error e => .error e
  | .ok .none => .ok none
  | .ok (.tuple l) => .ok (some l)
  | .ok (.text _) => .error .typeError

/-- piv.py 185-204 `_load` -/
def load (pm : Option MaskParams) (s : Stored) : Except PyErr Loaded :=
  match safeEval s.names with
  | .error e => .error e
  | .ok (.tuple names) => match loadPaths s.paths with
    | .error e => .error e
    | .ok paths => .ok ⟨names, paths, s.shape, pm⟩
  | .ok _ => .error .assertionError

/-- piv.py 130-135: `self.paths[index]` for a couple whose paths are known or are `None`. -/
def readFiles {F : Type} (E : Ext F) (paths : Option (List Txt)) : Except PyErr (List (Img Int)) :=
  match paths with
  | none => .error .typeError
  | some ps => readImages E (some ps)

/-- piv.py 162-166 `get_arrays` -/
def getArrays {F : Type} (E : Ext F) (c : Loaded) : Except PyErr (List (Img Int)) :=
  match readFiles E c.paths with
  | .error e => .error e
  | .ok as => maskArrays c.paramsMask as

/-- piv.py 334-337: the images of the window, `none` if the files can not be read. -/
def imagesOfDisplay {F : Type} (E : Ext F) (paths : Option (List Txt)) : Except PyErr (Option (List (Img Int))) :=
  match readFiles E paths with
  | .ok as => .ok (some as)
  | .error .fileNotFoundError => .ok none
  | .error .osError => .ok none
  | .error e => .error e

end Verif.CoupleFile
