import Verif.Model.Calibration

/-!
# Model of the reading of a calibration made with UVMAT

`/repo/src/fluidimage/calibration/util.py`: 13-14 (`get_number_from_string`), 68-150 (`make_params_calibration`).

The container given by `fluiddyn` for the element `GeometryCalib` of the file is a function from the names of the attributes to their
values.  `fluiddyn` converts a text which is one number to a number, and an empty text to `None`.  A text is the list of its words, `none`
for a word which is not a number.  Real numbers instead of floats.

Simplifications.  A value of `omc_1`, `omc_2`, `omc_3` which is not a number is a `TypeError` (`numpy` makes an array of objects, which
fails at its first use).
-/

namespace Verif.UvmatCalib
open Verif.Calib

/-- Names of the attributes after `tidy_container` (`r_1`, `slice_coord_2`, ... have a number). -/
inductive Key where
  | fxFy | cxCy | kc | txTyTz
  | r (i : ℕ)
  | omc
  | omcI (i : ℕ)
  | nbSlice
  | sliceCoord
  | sliceCoordI (i : ℕ)
  | sliceAngle
  | sliceAngleI (i : ℕ)
  | refractionIndex | interfaceCoord
deriving DecidableEq

/-- Values of the attributes. -/
inductive Attr where
  | int (n : ℤ)
  | num (x : ℝ)
  | text (words : List (Option ℝ))
  | null

/-- The container: `none` for a name which is not an attribute. -/
abbrev Container := Key → Option Attr

/-- 14: `float(word)` for the words. -/
def floats : List (Option ℝ) → Except Err (List ℝ)
  | [] => .ok []
  | none :: _ => .error .valueError
  | some x :: l => match floats l with
    | .error e => .error e
    | .ok r => .ok (x :: r)

/-- 13-14 `get_number_from_string` of an attribute: only a text has a method `split`; a missing attribute is an `AttributeError`. -/
def numbers : Option Attr → Except Err (List ℝ)
  | some (.text ws) => floats ws
  | _ => .error .attributeError

/-- 101, 103, 108, 109, 116, 126: one line of an array with three columns; `numpy` repeats a single number. -/
def toRow : List ℝ → Except Err V3
  | [x, y, z] => .ok ⟨x, y, z⟩
  | [x] => .ok ⟨x, x, x⟩
  | _ => .error .valueError

/-- The numbers of an attribute in one line of an array. -/
def row (a : Option Attr) : Except Err V3 :=
  match numbers a with
  | .error e => .error e
  | .ok l => toRow l

/-- 115-118, 125-128: the lines `i, i + 1, ...` (`n` lines) of an array. -/
def rows (c : Container) (key : ℕ → Key) : ℕ → ℕ → Except Err (List V3)
  | 0, _ => .ok []
  | n + 1, i => match row (c (key (i + 1))) with
    | .error e => .error e
    | .ok v => match rows c key n (i + 1) with
      | .error e => .error e
      | .ok l => .ok (v :: l)

/-- `hasattr(calib_uvmat, name) and calib_uvmat[name] is not None` (104-107, 120-123) -/
def given (a : Option Attr) : Bool :=
  match a with
  | none => false
  | some .null => false
  | some _ => true

/-- 83-86: the elements of `R`, line by line. -/
def readR (c : Container) : Except Err (List ℝ) :=
  match numbers (c (.r 1)) with
  | .error e => .error e
  | .ok a => match numbers (c (.r 2)) with
    | .error e => .error e
    | .ok b => match numbers (c (.r 3)) with
      | .error e => .error e
      | .ok d => .ok (a ++ b ++ d)

/-- 93: one number. -/
def number : Option Attr → Except Err ℝ
  | some (.int n) => .ok n
  | some (.num x) => .ok x
  | none => .error .attributeError
  | _ => .error .typeError

/-- 88-93 -/
def readOmc (c : Container) : Except Err (List ℝ) :=
  match c .omc with
  | some a => numbers (some a)
  | none => match number (c (.omcI 1)) with
    | .error e => .error e
    | .ok a => match number (c (.omcI 2)) with
      | .error e => .error e
      | .ok b => match number (c (.omcI 3)) with
        | .error e => .error e
        | .ok d => .ok [a, b, d]

/-- 97-139: the slices: `(slice_angle, zslice_coord)`, `none` if `nb_slice` is `None`. -/
def readSlices (c : Container) : Except Err (Option (Angles × List V3)) :=
  match c .nbSlice with
  | none => .error .attributeError                                               -- 97
  | some .null => .ok none
  | some (.text _) => .error .typeError                                          -- 99 `np.zeros`
  | some (.num _) => .error .typeError
  | some (.int n) =>
    if n < 0 then .error .valueError                                             -- 99
    else if n = 1 then
      match row (c .sliceCoord) with                                             -- 102
      | .error e => .error e
      | .ok v =>
        if given (c .sliceAngle) then
          match row (c .sliceAngle) with
          | .error e => .error e
          | .ok a => .ok (some (.rows [a], [v]))
        else .ok (some (.zeros, [v]))
    else
      match rows c .sliceCoordI n.toNat 0 with
      | .error e => .error e
      | .ok vs =>
        if given (c (.sliceAngleI 1)) then
          match rows c .sliceAngleI n.toNat 0 with
          | .error e => .error e
          | .ok as => .ok (some (.rows as, vs))
        else .ok (some (.zeros, vs))

/-- What `make_params_calibration` returns. -/
structure Params where
  f : List ℝ
  C : List ℝ
  kc : Attr
  T : List ℝ
  R : List ℝ
  omc : List ℝ
  slices : Option (Angles × List V3)
  refraction : Option Attr
  interface : Option (List ℝ)

/-- 143-148 -/
def readInterface (c : Container) : Except Err (Option (List ℝ)) :=
  match c .interfaceCoord with
  | none => .ok none
  | some a => match numbers (some a) with
    | .error e => .error e
    | .ok l => .ok (some l)

/-- 68-150 `make_params_calibration` -/
def makeParams (c : Container) : Except Err Params :=
  match numbers (c .fxFy) with
  | .error e => .error e
  | .ok f => match numbers (c .cxCy) with
    | .error e => .error e
    | .ok C => match c .kc with
      | none => .error .attributeError
      | some kc => match numbers (c .txTyTz) with
        | .error e => .error e
        | .ok T => match readR c with
          | .error e => .error e
          | .ok R => match readOmc c with
            | .error e => .error e
            | .ok omc => match readSlices c with
              | .error e => .error e
              | .ok slices => match readInterface c with
                | .error e => .error e
                | .ok interface => .ok ⟨f, C, kc, T, R, omc, slices, c .refractionIndex, interface⟩

/-- A number in the parameters. -/
def Attr.value : Attr → Option ℝ
  | .int n => some n
  | .num x => some x
  | _ => none

/-- `interface_coord`: missing, or its three first elements. -/
def interfacePoint : Option (List ℝ) → Option (Option V3)
  | none => some none
  | some (x :: y :: z :: _) => some (some ⟨x, y, z⟩)
  | some _ => none

/-- `refraction_index`: missing, or a number. -/
def refractionNumber : Option Attr → Option (Option ℝ)
  | none => some none
  | some a => match a.value with
    | none => none
    | some x => some (some x)

/-- The parameters as they are used by `calib_tsai.py`: the elements `f[0]`, `f[1]`, `C[0]`, `C[1]`, `T[0]` to `T[2]`, `R[0]` to `R[8]`,
`kc`, `interface_coord` and `refraction_index`.  `none` if one of them does not exist or is not a number. -/
def Params.toTsai (p : Params) : Option Tsai :=
  match p.f, p.C, p.T, p.R, p.kc.value with
  | f0 :: f1 :: _, c0 :: c1 :: _, t0 :: t1 :: t2 :: _, r0 :: r1 :: r2 :: r3 :: r4 :: r5 :: r6 :: r7 :: r8 :: _, some kc =>
    match interfacePoint p.interface, refractionNumber p.refraction with
    | some i, some n => some ⟨some (f0, f1), some ⟨t0, t1, t2⟩, some (c0, c1), some kc, some ⟨⟨r0, r1, r2⟩, ⟨r3, r4, r5⟩, ⟨r6, r7, r8⟩⟩, i, n, p.slices⟩
    | _, _ => none
  | _, _, _, _, _ => none

end Verif.UvmatCalib
