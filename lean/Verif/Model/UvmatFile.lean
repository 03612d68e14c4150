import Verif.Py.Text
import Mathlib.Data.Rat.Defs

/-!
# Model of the PIV results saved in the format of uvmat

`/repo/src/fluidimage/data_objects/piv.py` 641-707
(`MultipassPIVResults._save_as_uvmat`).

Simplifications.  A file of `h5netcdf` is a list of dimensions and a list of variables.  A variable is refused when its name is
already used or when its data do not fit the dimensions which exist; the dimensions which do not exist are created from the data.
Numbers are rationals, `none` is NaN; the conversion to float32 (650, 701) is not modelled.  The arrays `xs`, `ys`, … are lists.
-/

namespace Verif.UvmatFile
open Verif Verif.Text

abbrev Name := List Char

/-- The data of a variable. -/
inductive Data where
  | vec (l : List (Option ℚ))
  | mat (l : List (List ℚ))
  | ints (l : List Nat)
deriving DecidableEq

/-- `np.shape` of a list of arrays: NumPy refuses arrays of different lengths. -/
def shapeMat (l : List (List ℚ)) : Except PyErr (List Nat) :=
  match l with
  | [] => .ok [0]
  | a :: as => if as.all (fun b => b.length = a.length) then .ok [l.length, a.length] else .error .valueError

/-- Shape of the data. -/
def Data.shape : Data → Except PyErr (List Nat)
  | .vec l => .ok [l.length]
  | .mat l => shapeMat l
  | .ints l => .ok [l.length]

/-- A file of `h5netcdf` being written: dimensions and variables (name, dimensions, data). -/
structure File where
  dims : List (Name × Nat)
  vars : List (Name × List Name × Data)
deriving DecidableEq

/-- The data of the variable `name`. -/
def File.get (f : File) (name : Name) : Option Data := (f.vars.lookup name).map Prod.snd

/-- One operation on the file: `file.dimensions[name] = size` and `file.create_variable(name, dims, data=data)`; an error is an
exception raised in the evaluation of the arguments. -/
inductive Op where
  | dim (name : Name) (size : Except PyErr Nat)
  | var (name : Name) (dims : List Name) (data : Except PyErr Data)

/-- `file.dimensions[name] = size` (a dimension cannot be changed). -/
def setDim (f : File) (name : Name) (size : Nat) : Except PyErr File :=
  match f.dims.lookup name with
  | some _ => .error .valueError
  | none => .ok { f with dims := f.dims ++ [(name, size)] }

/-- The dimensions of a variable: created if they do not exist, compared with the data otherwise. -/
def fitDims (f : File) : List Name → List Nat → Except PyErr File
  | [], [] => .ok f
  | d :: ds, s :: ss => match f.dims.lookup d with
    | some s' => if s' = s then fitDims f ds ss else .error .valueError
    | none => fitDims { f with dims := f.dims ++ [(d, s)] } ds ss
  | _, _ => .error .valueError

/-- `file.create_variable(name, dims, data=data)` -/
def createVar (f : File) (name : Name) (dims : List Name) (data : Data) : Except PyErr File :=
  match f.vars.lookup name with
  | some _ => .error .valueError
  | none => match data.shape with
    | .error e => .error e
    | .ok shape => match fitDims f dims shape with
      | .error e => .error e
      | .ok f => .ok { f with vars := f.vars ++ [(name, dims, data)] }

/-- One operation. -/
def Op.apply (f : File) : Op → Except PyErr File
  | .dim _ (.error e) => .error e
  | .dim name (.ok size) => setDim f name size
  | .var _ _ (.error e) => .error e
  | .var name dims (.ok data) => createVar f name dims data

/-- Operations one after the other, until an exception: the file and the exception. -/
def run (f : File) : List Op → File × Option PyErr
  | [] => (f, none)
  | op :: ops => match op.apply f with
    | .error e => (f, some e)
    | .ok f => run f ops

/-- The attributes of the result of one pass used here (`none`: no such attribute); `smooth`: `deltaxs_smooth`, `deltays_smooth`;
`tps`: `deltaxs_tps`, `deltays_tps`; `useTps`: is `params.multipass.use_tps` true in a test? -/
structure Pass where
  xs : List ℚ
  ys : List ℚ
  deltaxs : List (Option ℚ)
  deltays : List (Option ℚ)
  correls : List (Option ℚ)
  useTps : Bool
  smooth : Option (List (Option ℚ) × List (Option ℚ))
  tps : Option (List (List ℚ) × List (List ℚ))
deriving DecidableEq

/-- `f"Civ{iuvmat}_{suffix}"`, with `iuvmat = i + 1`. -/
def civ (i : Nat) (suffix : String) : Name := "Civ".toList ++ (natStr (i + 1) ++ ('_' :: suffix.toList))

/-- `"nb_vec_" + str(i + 1)` -/
def nbVec (i : Nat) : Name := "nb_vec_".toList ++ natStr (i + 1)

/-- `f"nb_subdomain_{iuvmat}"` -/
def nbSubdomain (i : Nat) : Name := "nb_subdomain_".toList ++ natStr (i + 1)

/-- `f"nb_tps{iuvmat}"` -/
def nbTps (i : Nat) : Name := "nb_tps".toList ++ natStr (i + 1)

/-- `f"nb_vec_tps_{iuvmat}"` -/
def nbVecTps (i : Nat) : Name := "nb_vec_tps_".toList ++ natStr (i + 1)

/-- `np.nan_to_num(arr)` (656, 659) -/
def nanToNum (l : List (Option ℚ)) : List (Option ℚ) := l.map fun x => some (x.getD 0)

/-- `tmp = np.zeros(shape); tmp[indsnan] = 1` (701-703) -/
def flags (l : List (Option ℚ)) : List (Option ℚ) := l.map fun x => some (if x.isNone then 1 else 0)

/-- `tmp[inds] = values` with `inds = np.where(~np.isnan(deltaxs))` and zeros elsewhere (650-651, 669, 673).  One value is
broadcast; another number of values is refused. -/
def putAt (deltaxs values : List (Option ℚ)) : Except PyErr (List (Option ℚ)) :=
  let n := (deltaxs.filter Option.isSome).length
  if values.length = n then .ok (go deltaxs values)
  else match values with
    | [v] => .ok (deltaxs.map fun x => if x.isSome then v else some 0)
    | _ => .error .valueError
where
  go : List (Option ℚ) → List (Option ℚ) → List (Option ℚ)
    | none :: ds, vs => some 0 :: go ds vs
    | some _ :: ds, v :: vs => v :: go ds vs
    | _, _ => []

/-- 645-660 -/
def headOps (i : Nat) (p : Pass) : List Op :=
  [.dim (nbVec i) (.ok p.xs.length),
   .var (civ i "X") [nbVec i] (.ok (.vec (p.xs.map some))),
   .var (civ i "Y") [nbVec i] (.ok (.vec (p.ys.map some))),
   .var (civ i "U") [nbVec i] (.ok (.vec (nanToNum p.deltaxs))),
   .var (civ i "V") [nbVec i] (.ok (.vec (nanToNum p.deltays)))]

/-- `np.shape(ir.deltaxs_tps)[k]` (665-668); without the attribute it is an `AttributeError`. -/
def tpsSize (p : Pass) (k : Nat) : Except PyErr Nat :=
  match p.tps with
  | none => .error .attributeError
  | some (wx, _) => match shapeMat wx with
    | .error e => .error e
    | .ok s => match s[k]? with
      | some n => .ok n
      | none => .error .indexError

/-- The values of a smoothed component, 669 and 673. -/
def smoothData (p : Pass) (c : List (Option ℚ) × List (Option ℚ) → List (Option ℚ)) : Except PyErr Data :=
  match p.smooth with
  | none => .error .attributeError
  | some s => match putAt p.deltaxs (c s) with
    | .error e => .error e
    | .ok l => .ok (.vec l)

/-- The weights of a component, 677-686. -/
def tpsData (p : Pass) (c : List (List ℚ) × List (List ℚ) → List (List ℚ)) : Except PyErr Data :=
  match p.tps with
  | none => .error .attributeError
  | some t => .ok (.mat (c t))

/-- The numbers of weights, 687-689.  `dimInt`: is `file.dimensions[name]` an integer?  In the versions of `h5netcdf` where it is an
object, line 687 is a `TypeError`. -/
def nbCentres (dimInt : Bool) (p : Pass) : Except PyErr Data :=
  match p.tps with
  | none => .error .attributeError
  | some (wx, _) => if dimInt then .ok (.ints (wx.map List.length)) else .error .typeError

/-- 663-694, in the `try` block. -/
def tpsOps (dimInt : Bool) (i : Nat) (p : Pass) : List Op :=
  [.dim (nbSubdomain i) (tpsSize p 0),
   .dim (nbTps i) (tpsSize p 1),
   .var (civ i "U_smooth") [nbVec i] (smoothData p Prod.fst),
   .var (civ i "V_smooth") [nbVec i] (smoothData p Prod.snd),
   .var (civ i "U_tps") [nbSubdomain i, nbVecTps i] (tpsData p Prod.fst),
   .var (civ i "V_tps") [nbSubdomain i, nbVecTps i] (tpsData p Prod.snd),
   .var (civ i "NbCentres") [nbSubdomain i] (nbCentres dimInt p)]

/-- 698-707 -/
def tailOps (i : Nat) (p : Pass) : List Op :=
  [.var (civ i "C") [nbVec i] (.ok (.vec p.correls)),
   .var (civ i "FF") [nbVec i] (.ok (.vec (flags p.deltaxs))),
   .var (civ i "F") [nbVec i] (.ok (.vec (flags p.deltaxs)))]

/-- 644-707: one pass; the exceptions of the `try` block are dropped (695-696). -/
def savePass (dimInt : Bool) (i : Nat) (f : File) (p : Pass) : File × Option PyErr :=
  match run f (headOps i p) with
  | (f, some e) => (f, some e)
  | (f, none) =>
    let f := if p.useTps then (run f (tpsOps dimInt i p)).1 else f
    run f (tailOps i p)

/-- 644: the passes number `i`, `i + 1`, … -/
def savePasses (dimInt : Bool) (i : Nat) (f : File) : List Pass → File × Option PyErr
  | [] => (f, none)
  | p :: ps => match savePass dimInt i f p with
    | (f, some e) => (f, some e)
    | (f, none) => savePasses dimInt (i + 1) f ps

/-- 642 -/
def emptyFile : File := ⟨[("nb_coord".toList, 2), ("nb_bounds".toList, 2)], []⟩

/-- 641-707 `_save_as_uvmat`: the file and the exception. -/
def saveAsUvmat (dimInt : Bool) (passes : List Pass) : File × Option PyErr := savePasses dimInt 0 emptyFile passes

end Verif.UvmatFile
