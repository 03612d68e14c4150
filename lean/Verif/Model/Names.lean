import Verif.Py.Text

/-!
# Names of the files of results

Model of `get_name_piv`, `get_name_bos` (`src/fluidimage/data_objects/piv.py` lines 37-64) and of
`get_Ni_Nj`, `get_ind_middle`, `get_name_preproc` (`src/fluidimage/data_objects/preproc.py` lines 25-81).

A serie (class of the library fluiddyn, not in the repository) is known by its slicing tuples `(start,)`,
`(start, stop)` or `(start, stop, step)`, by the text of an index in each dimension
(`get_str_for_name_from_idim_idx`), by its separators, its base name and its extension.
-/

namespace Verif.Names
open Verif Verif.Text

/-- ASCII letters (`str.isalpha`). -/
def isLetter (c : Char) : Bool :=
  (65 ≤ c.toNat && c.toNat ≤ 90) || (97 ≤ c.toNat && c.toNat ≤ 122)

/-- piv.py 46: `str_index.isalpha() and len(str_index) == 1` -/
def oneLetter (s : List Char) : Bool := s.all isLetter && s.length == 1

/-- piv.py 41-50: the text for one dimension; `inds[0]` of an empty tuple is an `IndexError`. -/
def indexText (str : Int → List Char) (inds : List Int) : Except PyErr (List Char) :=
  match inds with
  | [] => .error .indexError
  | index :: rest =>
    match rest with
    | [] => .ok (str index)
    | stop :: _ =>
      if str (stop - 1) ≠ str index then
        .ok (str index ++ (if oneLetter (str index) then [] else ['-']) ++ str (stop - 1))
      else .ok (str index)

/-- piv.py 52-53: the separator before dimension `idim`.  (`get_index_separators` is used as a list.) -/
def sepOf (seps : List (List Char)) (idim : Nat) : Except PyErr (List Char) :=
  if idim > 1 then
    match seps[idim - 1]? with
    | some sep => .ok sep
    | none => .error .indexError
  else .ok []

/-- piv.py 40-54: the loop over the dimensions, from dimension `idim`. -/
def indicesText (str : Nat → Int → List Char) (seps : List (List Char)) :
    Nat → List (List Int) → Except PyErr (List Char)
  | _, [] => .ok []
  | idim, inds :: rest =>
    match indexText (str idim) inds with
    | .error e => .error e
    | .ok s =>
      match sepOf seps idim with
      | .error e => .error e
      | .ok sep => match indicesText str seps (idim + 1) rest with
        | .error e => .error e
        | .ok t => .ok (sep ++ s ++ t)

/-- piv.py 37-57 `get_name_piv` -/
def namePiv (pfx : List Char) (str : Nat → Int → List Char) (seps : List (List Char)) (tuples : List (List Int)) :
    Except PyErr (List Char) :=
  match indicesText str seps 0 tuples with
  | .error e => .error e
  | .ok s => .ok (pfx ++ ['_'] ++ s ++ ".h5".toList)

/-- Python `text[:-n]` for `n ≥ 1`. -/
def dropLastN (n : Nat) (s : List Char) : List Char := s.take (s.length - n)

/-- piv.py 60-64 `get_name_bos` -/
def nameBos (name baseName : List Char) (ext : Option (List Char)) : List Char :=
  let name := name.drop baseName.length
  let name := match ext with
    | some e => dropLastN (e.length + 1) name
    | none => name
  "bos".toList ++ name ++ ".h5".toList

/-- preproc.py 25-50 `get_Ni_Nj` for a serie with the given number of indices and slicing tuples. -/
def getNiNj (nbIndices : Nat) (slices : List (List Int)) : Except PyErr (Int × Int) :=
  match slices[0]? with
  | none => .error .indexError
  | some s0 => match s0[1]?, s0[0]? with
    | some b, some a =>
      if nbIndices = 1 then .ok (b - a, 1)
      else if nbIndices = 2 then
        match slices[1]? with
        | none => .error .indexError
        | some s1 => if s1.length = 1 then .ok (b - a, 1)
          else match s1[1]?, s1[0]? with
            | some d, some c => .ok (b - a, d - c)
            | _, _ => .error .indexError
      else .error .notImplementedError
    | _, _ => .error .indexError

/-- preproc.py 53-60 `get_ind_middle` (the floating-point divisions by two are exact). -/
def indMiddle (ni nj : Int) : Int × Int :=
  let start := ni / 2 * nj
  let stop := (ni + 1) / 2 * nj
  (if ni % 2 = 0 then start - 1 else start, stop)

/-- preproc.py 66-73: the index of the file which gives its name. -/
def nameIndex (ni nj : Int) (indSerie nbSeries : Nat) : Int :=
  if indSerie = 0 ∧ nbSeries = 1 then -1
  else if indSerie = 0 then (indMiddle ni nj).1
  else if (indSerie : Int) = nbSeries - 1 then -1
  else (indMiddle ni nj).1

/-- Python list indexing. -/
def item {β : Type} (l : List β) (i : Int) : Except PyErr β :=
  let j := if i < 0 then i + l.length else i
  if j < 0 then .error .indexError
  else match l[j.toNat]? with
    | some v => .ok v
    | none => .error .indexError

/-- The part of `os.path.splitext(name)` before the extension: up to the last dot, if there is something else than
dots before it. -/
def stem (name : List Char) : List Char :=
  let r := name.reverse
  let ext := r.takeWhile (· ≠ '.')
  let root := (r.drop (ext.length + 1)).reverse
  if ext.length = r.length then name
  else if root.all (· == '.') then name
  else root

/-- preproc.py 63-81 `get_name_preproc`; `fmt = none` is the format "img". -/
def namePreproc (ni nj : Int) (files : List (List Char)) (indSerie nbSeries : Nat) (fmt : Option (List Char)) :
    Except PyErr (List Char) :=
  match item files (nameIndex ni nj indSerie nbSeries) with
  | .error e => .error e
  | .ok f => match fmt with
    | none => .ok f
    | some ext => .ok (stem f ++ ['.'] ++ ext)

end Verif.Names
