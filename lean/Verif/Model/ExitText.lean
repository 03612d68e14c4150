import Verif.Model.Builder
import Verif.Py.Text
import Mathlib.Data.Rat.Floor
import Mathlib.Algebra.Order.Floor.Semiring

/-!
# Model of the text printed at the end of a computation

`/repo/src/fluidimage/topologies/base.py:401-419` (`make_text_at_exit`, `print_at_exit`), `topologies/bos.py:191-205`,
`topologies/piv.py:235-255`; attributes `nb_max_workers` and `nb_processes` of the executors: `executors/base.py:158-176, 466, 508`,
`exec_sequential.py:78-80`.

Simplifications: a duration is a rational number which is not negative; the quotients are exact (no rounding of floats) before they are
written with two decimals.  The absolute path of the directory of the results is a given text.
-/

namespace Verif.ExitText
open Verif Verif.Text

/-! ## Numbers with two decimals -/

/-- Nearest integer of a number which is not negative; the even one if there are two (as `format` of Python). -/
def roundEven (x : ℚ) : ℕ :=
  if x - (⌊x⌋₊ : ℚ) < 1 / 2 then ⌊x⌋₊
  else if 1 / 2 < x - (⌊x⌋₊ : ℚ) then ⌊x⌋₊ + 1
  else if ⌊x⌋₊ % 2 = 0 then ⌊x⌋₊ else ⌊x⌋₊ + 1

/-- `f"{x:.2f}"` -/
def fixed2 (x : ℚ) : List Char :=
  natStr (roundEven (x * 100) / 100) ++
    ['.', digitChar (roundEven (x * 100) / 10 % 10), digitChar (roundEven (x * 100) % 10)]

/-! ## The executor, as it is seen by the text -/

/-- The executors of the package which can be given by name. -/
inductive Exec where
  | sequential
  | async
  | asyncSequential
  | asyncMultiproc
  | asyncServers
  | multi
deriving DecidableEq

/-- The two attributes read by piv.py 244-246: `nb_processes` exists only for the multi executors. -/
structure Attrs where
  nbProcesses : Option ℕ
  nbMaxWorkers : ℕ
deriving DecidableEq

/-- executors/base.py 158-176 (all executors), exec_sequential.py 78-80 (one worker), executors/base.py 508 (multi executors: number
of processes which have been started, `started`). -/
def attrsOf (e : Exec) (arg cfg : Option ℕ) (cores started : ℕ) : Attrs :=
  match e with
  | .sequential => ⟨none, 1⟩
  | .multi => ⟨some started, Builder.maxWorkers arg cfg cores⟩
  | _ => ⟨none, Builder.maxWorkers arg cfg cores⟩

/-! ## The texts -/

/-- piv.py 237, bos.py 193, base.py 403 -/
def begin_ (t : ℚ) : List Char := "Stop compute after t = ".toList ++ fixed2 t ++ " s".toList

/-- base.py 401-415.  `results`: number of elements of `self.results`, `none` without this attribute; `path`: text of the absolute path,
`none` without the attribute `path_dir_result`. -/
def textBase (t : ℚ) (results : Option ℕ) (path : Option (List Char)) : List Char :=
  begin_ t ++
    (match results with
    | some n =>
      if 0 < n then
        " (".toList ++ natStr n ++ " results, ".toList ++ fixed2 (t / n) ++ " s/result).".toList
      else ".".toList
    | none => ".".toList) ++
    (match path with
    | some p => "\npath results:\n".toList ++ p ++ "\n".toList
    | none => [])

/-- bos.py 191-205 -/
def textBos (t : ℚ) (results : Option ℕ) (path : List Char) : List Char :=
  begin_ t ++
    (match results with
    | some n =>
      if 0 < n then
        " (".toList ++ natStr n ++ " bos fields, ".toList ++ fixed2 (t / n) ++ " s/field).".toList
      else ".".toList
    | none => ".".toList) ++
    ("\npath results:\n".toList ++ path)

/-- piv.py 243-247: the number of cores used; `AttributeError` if the topology has no executor. -/
def coresUsed (cores : ℕ) (executor : Option Attrs) : Except PyErr ℕ :=
  match executor with
  | none => .error .attributeError
  | some a =>
    match a.nbProcesses with
    | some n => .ok (min cores n)
    | none => .ok (min cores a.nbMaxWorkers)

/-- piv.py 235-255 -/
def textPiv (t : ℚ) (results : Option ℕ) (path : List Char) (cores : ℕ) (executor : Option Attrs) : Except PyErr (List Char) :=
  let last := "\npath results:\n".toList ++ path
  match results with
  | none => .ok (begin_ t ++ ".".toList ++ last)
  | some n =>
    if 0 < n then
      match coresUsed cores executor with
      | .error e => .error e
      | .ok c =>
        .ok (begin_ t ++ (" (".toList ++ natStr n ++ " piv fields, ".toList ++ fixed2 (t / n) ++ " s/field, ".toList ++
          fixed2 (t * c / n) ++ " s.CPU/field).".toList) ++ last)
    else .ok (begin_ t ++ ".".toList ++ last)

end Verif.ExitText
