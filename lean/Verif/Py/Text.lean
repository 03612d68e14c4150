import Verif.Py.Basic

/-!
# Python text: `str`, `int`, `strip`, `split`, lines of a file

Strings are lists of characters.  `int(text)` is modelled for the characters that occur in the modelled
files (sign, decimal digits, surrounding white space); Python also accepts underscores between digits,
which are never written.
-/

namespace Verif.Text
open Verif

/-- The decimal digit of `d < 10`. -/
def digitChar (d : Nat) : Char := Char.ofNat (48 + d)

/-- `str(n)` for a natural number. -/
def natStr (n : Nat) : List Char :=
  if n < 10 then [digitChar n] else natStr (n / 10) ++ [digitChar (n % 10)]
termination_by n

/-- `str(i)` for an integer. -/
def intStr (i : Int) : List Char :=
  if i < 0 then '-' :: natStr i.natAbs else natStr i.natAbs

/-- White space characters removed by `str.strip()` (ASCII part). -/
def isSpace (c : Char) : Bool :=
  c == ' ' || c == '\n' || c == '\t' || c == '\r' || c == '\x0b' || c == '\x0c'

/-- `text.strip()` -/
def strip (s : List Char) : List Char :=
  ((s.dropWhile isSpace).reverse.dropWhile isSpace).reverse

/-- Value of a decimal digit character, if it is one. -/
def digitVal (c : Char) : Option Nat :=
  if 48 ≤ c.toNat ∧ c.toNat ≤ 57 then some (c.toNat - 48) else none

/-- Value of a non-empty sequence of digits read from left to right. -/
def digitsVal (acc : Nat) : List Char → Option Nat
  | [] => some acc
  | c :: cs => match digitVal c with
    | some d => digitsVal (acc * 10 + d) cs
    | none => none

/-- Unsigned part of `int(text)`: at least one digit is needed. -/
def parseNat (s : List Char) : Except PyErr Nat :=
  if s.isEmpty then .error .valueError
  else match digitsVal 0 s with
    | some n => .ok n
    | none => .error .valueError

/-- `int(text)`: white space around is ignored, optional sign, then digits. -/
def pyInt (s : List Char) : Except PyErr Int :=
  match strip s with
  | '-' :: cs => (parseNat cs).map (fun n : Nat => -(n : Int))
  | '+' :: cs => (parseNat cs).map (fun n : Nat => (n : Int))
  | cs => (parseNat cs).map (fun n : Nat => (n : Int))

/-- `text.split(sep)` for a one-character separator: never empty, keeps empty pieces. -/
def splitChar (sep : Char) : List Char → List (List Char)
  | [] => [[]]
  | c :: cs =>
    if c == sep then [] :: splitChar sep cs
    else match splitChar sep cs with
      | [] => [[c]]   -- impossible
      | p :: ps => (c :: p) :: ps

/-- `sep.join(parts)` -/
def join (sep : List Char) : List (List Char) → List Char
  | [] => []
  | [p] => p
  | p :: q :: ps => p ++ sep ++ join sep (q :: ps)

/-- Iterating over a text file: the lines, each with its final newline (the last one may lack it). -/
def fileLines : List Char → List (List Char)
  | [] => []
  | c :: cs =>
    if c == '\n' then ['\n'] :: fileLines cs
    else match fileLines cs with
      | [] => [[c]]
      | l :: ls => (c :: l) :: ls

/-- `str(t)` for a tuple of integers: `()`, `(1,)`, `(1, 2)`, … -/
def tupleStr (t : List Int) : List Char :=
  match t with
  | [i] => '(' :: intStr i ++ [',', ')']
  | t => '(' :: join [',', ' '] (t.map intStr) ++ [')']

/-- Python slice `text[1:-1]`. -/
def slice1m1 (s : List Char) : List Char := (s.drop 1).dropLast

end Verif.Text
