import Verif.Py.Text

/-!
# Model of the UVMAT interface and of the formatting of durations

`/repo/src/fluidimage/uvmat.py:25-45` (`tidy_uvmat_instructions`), 66-121 (`set_params_series`), 196-226
(`params_from_uvmat_xml`); `/repo/src/fluidimage/util/util.py:138-144` is in `Verif/Model/TimeFormat.lean`.

The XML files are not modelled: an attribute which may be missing is an `Option`.
-/

namespace Verif.Uvmat
open Verif Verif.Text

/-- `text.split(sep)` for a separator of several characters. -/
def splitStr (sep : List Char) : List Char → List (List Char)
  | [] => [[]]
  | c :: cs =>
    if sep.isPrefixOf (c :: cs) ∧ sep ≠ [] then [] :: splitStr sep ((c :: cs).drop sep.length)
    else match splitStr sep cs with
      | [] => [[c]]   -- impossible
      | p :: ps => (c :: p) :: ps
termination_by s => s.length
decreasing_by
  · rename_i h
    have : 0 < sep.length := List.length_pos_iff.2 h.2
    simp only [List.length_drop, List.length_cons]; omega
  · simp

/-- POSIX `os.path.join(a, b)`. -/
def pathJoin (a b : List Char) : List Char :=
  if b.head? = some '/' then b
  else if a = [] ∨ a.getLast? = some '/' then a ++ b
  else a ++ '/' :: b

/-- uvmat.py:33-34: `x[1:] if x.startswith("/") else x` -/
def stripSlash (s : List Char) : List Char :=
  match s with
  | '/' :: s => s
  | s => s

/-- The paths computed by `tidy_uvmat_instructions`. -/
structure Paths where
  dirInput : List Char
  /-- argument of `os.path.abspath` (uvmat.py:39; `abspath` is not modelled) -/
  fileInput : List Char
  dirOutput : List Char
deriving DecidableEq

/-- uvmat.py:31-45 `tidy_uvmat_instructions` (after `tidy_container`). -/
def tidy (inputTable outputDirExt : List Char) : Except PyErr Paths :=
  match splitStr [' ', '&', ' '] inputTable with                 -- 31
  | [] => .error .typeError                                       -- impossible
  | t0 :: ts =>
    match ts.map stripSlash with                                  -- 32-34
    | t1 :: t2 :: _ :: rest =>
      let dir := pathJoin t0 t1                                    -- 36
      let filename := t2 ++ '*' :: rest.flatten                    -- 37-38
      .ok ⟨dir, pathJoin dir filename, dir ++ outputDirExt⟩        -- 39-45
    | _ => .error .indexError                                     -- 37

/-- `instructions.index_range` -/
structure IndexRange where
  firstI : Option Int
  incrI : Option Int
  lastI : Option Int
  firstJ : Option Int
  incrJ : Option Int
  lastJ : Option Int
deriving DecidableEq

/-- `params.series` -/
structure Series where
  strSubset : List Char
  indStart : Int
  indStep : Int
  indStop : Option Int
deriving DecidableEq

def seriesDi : List Char := ['s', 'e', 'r', 'i', 'e', 's', '(', 'D', 'i', ')']
def seriesDj : List Char := ['s', 'e', 'r', 'i', 'e', 's', '(', 'D', 'j', ')']
def pairJ : List Char := ['p', 'a', 'i', 'r', ' ', 'j', '1', '-', 'j', '2']
def pairAB : List Char := ['j', '=', ' ', 'a', '-', 'b']

/-- uvmat.py:74-84 and 88-98: start, step and stop; a missing first index is an `AttributeError`. -/
def range3 (first incr last : Option Int) : Except PyErr (Int × Int × Option Int) :=
  match first with
  | none => .error .attributeError
  | some f => .ok (f, incr.getD 1, last.map (· + 1))

/-- uvmat.py:66-121 `set_params_series`.  `civ1` is `pair_indices.list_pair_civ1`; the warning for texts starting with
`"j= a-b"` (103-106) is not modelled. -/
def setParamsSeries (pairMode : List Char) (civ1 : Option (List Char)) (ir : IndexRange) : Except PyErr Series :=
  if pairMode = seriesDi ∨ pairMode = pairJ then
    match range3 ir.firstI ir.incrI ir.lastI with
    | .error e => .error e
    | .ok (start, step, stop) =>
      if pairMode = pairJ then
        match civ1 with
        | none => .error .attributeError
        | some civ1 =>
          if pairAB.isPrefixOf civ1 then .ok ⟨['i', ',', '0', ':', '2'], start, step, stop⟩   -- 107
          else .error .notImplementedError
      else .ok ⟨['i', ':', 'i', '+', '2', ':', '1'], start, step, stop⟩                       -- 109
  else if pairMode = seriesDj then
    match range3 ir.firstJ ir.incrJ ir.lastJ with
    | .error e => .error e
    | .ok (start, step, stop) =>
      match ir.firstI, ir.lastI with
      | some fi, some li =>
        if fi ≠ li then .error .notImplementedError
        else .ok ⟨"{ir.first_i},i:i+2:1".toList, start, step, stop⟩                           -- 113
      | _, _ => .error .attributeError
  else .error .notImplementedError                                                             -- 115

/-- The PIV parameters set from the instructions (uvmat.py:200-226). -/
structure Action where
  searchBoxSize : List Char
  /-- `sub_domain_size`, `field_smooth`, `max_diff` of `patch2` -/
  patch2 : Option (Int × Int × Int)
  civ2 : Bool
  minCorr : Int
  maxVel : Option Int

structure PivParams where
  shapeCrop : Int
  useTps : Bool
  subdomSize : Int
  smoothing : Int
  thresholdTps : Int
  number : Nat
  correlMin : Int
  displacementMax : Option Int
deriving DecidableEq

/-- uvmat.py:196-226 `params_from_uvmat_xml` (real parameters are represented by integers: they are only copied). -/
def paramsPiv (p : PivParams) (a : Action) : Except PyErr PivParams :=
  match splitChar '\t' a.searchBoxSize with
  | [] => .error .indexError                                       -- impossible
  | s :: _ => match pyInt s with
    | .error e => .error e
    | .ok n0 =>
      let n0 := if n0 % 2 = 1 then n0 - 1 else n0
      let p := { p with shapeCrop := n0 }
      let p := match a.patch2 with
        | some (x, y, z) => { p with subdomSize := x, smoothing := y, thresholdTps := z }
        | none => { p with useTps := false }
      let p := if a.civ2 then { p with number := 2 } else p
      let p := { p with correlMin := a.minCorr }
      match a.maxVel with
      | some v => .ok { p with displacementMax := some v }
      | none => .ok p

/-! ## Interpretation of `params.series`

`SeriesOfArrays` is in fluiddyn, not in this repository.  Its documented semantics is modelled for the forms of text
which occur here: for each index `i` of `range(ind_start, ind_stop, ind_step)`, the parts of `str_subset` separated by
commas are indices or slices whose bounds are `i`, `i+n` or `n`. -/

/-- Value of the expressions `i`, `i+n` and `n`. -/
def evalExpr (i : Int) (e : List Char) : Except PyErr Int :=
  match e with
  | ['i'] => .ok i
  | 'i' :: '+' :: n => match pyInt n with
    | .ok n => .ok (i + n)
    | .error e => .error e
  | e => pyInt e

/-- The indices selected by one part of `str_subset`. -/
def evalPart (i : Int) (part : List Char) : Except PyErr (List Int) :=
  match (splitChar ':' part).mapM (evalExpr i) with
  | .error e => .error e
  | .ok [a] => .ok [a]
  | .ok [a, b] => .ok (pyRange a b 1)
  | .ok [a, b, c] => if c = 0 then .error .valueError else .ok (pyRange a b c)
  | .ok _ => .error .valueError

/-- The indices of the files of the subset number `i`: all the combinations of the indices of the parts. -/
def evalSubset (i : Int) (strSubset : List Char) : Except PyErr (List (List Int)) :=
  match (splitChar ',' strSubset).mapM (evalPart i) with
  | .error e => .error e
  | .ok parts => .ok (parts.foldr (fun xs acc => xs.flatMap (fun x => acc.map (x :: ·))) [[]])

/-- The subsets of the series (with a stop index). -/
def selected (s : Series) (stop : Int) : Except PyErr (List (List (List Int))) :=
  if s.indStep = 0 then .error .valueError
  else (pyRange s.indStart stop s.indStep).mapM (fun i => evalSubset i s.strSubset)

end Verif.Uvmat
