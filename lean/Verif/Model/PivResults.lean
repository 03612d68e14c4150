import Verif.Py.Text
import Verif.Py.Dict

/-!
# Files of PIV results

Model of `src/fluidimage/data_objects/piv.py`: `HeavyPIVResults` (lines 256-318, 382-507), `MultipassPIVResults`
(541-639, `make_light_result` 716-742) and `LightPIVResults` (772-817, 855-901).

The HDF5 library is modelled by groups whose names are enumerated in increasing order of their bytes, which is the
order of `group.keys()` for files made with the default options of h5py.

Simplifications: the numbers are of a type `α` with a conversion `r32 : α → α` to single precision
(`arr.astype(np.float32)`); an attribute which is absent and an attribute equal to `None` are both `none` (both are
skipped when saving); the parameters and the couple (types `π`, `γ`) are written and read back unchanged; text
is written and read in bytes without change (`encode`, `decode`); attributes of groups which are only
informative (names of classes, versions) are not modelled; `correls`, `secondary_peaks` and
`indices_no_displacement` are never written (not in the lists of lines 256-276) and are not modelled.
-/

namespace Verif.PivResults
open Verif Verif.Text

/-! ## Groups of an HDF5 file -/

/-- Order of the names of the members of a group (comparison of bytes, a prefix comes first). -/
def nameLt : List Char → List Char → Bool
  | [], [] => false
  | [], _ :: _ => true
  | _ :: _, [] => false
  | a :: as, b :: bs => if a.toNat < b.toNat then true else if b.toNat < a.toNat then false else nameLt as bs

/-- A group: its members in increasing order of their names. -/
abbrev H5 (β : Type) := List (List Char × β)

/-- Position of a new member. -/
def h5place {β : Type} (n : List Char) (v : β) : H5 β → H5 β
  | [] => [(n, v)]
  | (m, w) :: g => if nameLt n m then (n, v) :: (m, w) :: g else (m, w) :: h5place n v g

/-- `g.create_group(n)`, `g.create_dataset(n, ...)`: `ValueError` if the name exists. -/
def h5create {β : Type} (n : List Char) (v : β) (g : H5 β) : Except PyErr (H5 β) :=
  if n ∈ g.map Prod.fst then .error .valueError else .ok (h5place n v g)

/-- `g[n]`: `KeyError` if there is no such member. -/
def h5get {β : Type} (n : List Char) : H5 β → Except PyErr β
  | [] => .error .keyError
  | (m, w) :: g => if m = n then .ok w else h5get n g

/-! ## Results of one pass -/

/-- 256-274 `_keys_to_be_saved`: the names of the arrays. -/
inductive Key where
  | xs | ys | xs_smooth | ys_smooth | deltaxs | deltays | correls_max | deltaxs_approx | deltays_approx
  | ixvecs_approx | iyvecs_approx | deltaxs_final | deltays_final | deltaxs_smooth | deltays_smooth
  | ixvecs_final | iyvecs_final
  deriving DecidableEq, Repr

/-- 256-274 `_keys_to_be_saved` -/
def keysToBeSaved : List Key :=
  [.xs, .ys, .xs_smooth, .ys_smooth, .deltaxs, .deltays, .correls_max, .deltaxs_approx, .deltays_approx,
   .ixvecs_approx, .iyvecs_approx, .deltaxs_final, .deltays_final, .deltaxs_smooth, .deltays_smooth,
   .ixvecs_final, .iyvecs_final]

/-- A 1D array; `f64` tells if its type is `np.float64`. -/
structure Arr (α : Type) where
  f64 : Bool
  data : List α
  deriving DecidableEq

/-- 276 `_dict_to_be_saved`: the names of the dictionaries. -/
inductive DictName where
  | errors | deltaxs_wrong | deltays_wrong
  deriving DecidableEq, Repr

/-- 276 `_dict_to_be_saved` -/
def dictToBeSaved : List DictName := [.errors, .deltaxs_wrong, .deltays_wrong]

/-- The values of a dictionary: texts or numbers. -/
inductive Vals (α : Type) where
  | texts (l : List (List Char))
  | nums (l : List α)
  deriving DecidableEq

/-- A dictionary whose keys are indices of vectors. -/
inductive PDict (α : Type) where
  | texts (d : Dict Int (List Char))
  | nums (d : Dict Int α)
  deriving DecidableEq

/-- The attributes of `HeavyPIVResults` which are saved (308-318 and the attributes set by the works). -/
structure Heavy (α π γ : Type) where
  arr : Key → Option (Arr α)
  dict : DictName → Option (PDict α)
  tps : Option (List (List α) × List (List α))
  params : π
  couple : γ

/-- The group of a dictionary. -/
structure DGroup (α : Type) where
  keys : List Int
  vals : Vals α
  codes : Option (List Nat)
  deriving DecidableEq

/-- The group of a pass. -/
structure Group (α : Type) where
  arrs : List (Key × Arr α)
  dicts : List (DictName × DGroup α)
  tps : Option (H5 (List α) × H5 (List α))

/-- The file. -/
structure File (α π γ : Type) where
  params : Option π
  couple : Option γ
  nbPasses : Nat
  groups : H5 (Group α)

/-- 400-401: arrays in double precision are converted to single precision. -/
def toStored {α : Type} (r32 : α → α) (a : Arr α) : Arr α :=
  if a.f64 then ⟨false, a.data.map r32⟩ else a

/-- 397-402: the arrays. -/
def saveArrs {α : Type} (r32 : α → α) (arr : Key → Option (Arr α)) : List Key → List (Key × Arr α)
  | [] => []
  | k :: ks => match arr k with
    | none => saveArrs r32 arr ks
    | some a => (k, toStored r32 a) :: saveArrs r32 arr ks

/-- `text.startswith(prefix)` -/
def startsWith : List Char → List Char → Bool
  | _, [] => true
  | [], _ :: _ => false
  | a :: as, b :: bs => a == b && startsWith as bs

/-- 433-442: the code of an error. -/
def errorCode (error : List Char) : Nat :=
  if startsWith error "Correlation peak touching".toList then 1
  else if startsWith error "correl < correl_min".toList then 2
  else if startsWith error "delta2 < displacement_max2".toList then 3
  else if startsWith error "diff neighbour too large".toList then 4
  else 255

/-- 429-444: the codes; `.startswith` of a number is an `AttributeError`. -/
def errorCodes {α : Type} : Vals α → Except PyErr (List Nat)
  | .texts l => .ok (l.map errorCode)
  | .nums [] => .ok []
  | .nums (_ :: _) => .error .attributeError

/-- 413: `list(d.keys())` -/
def PDict.keys {α : Type} : PDict α → List Int
  | .texts d => Dict.keys d
  | .nums d => Dict.keys d

/-- 414: `list(d.values())` -/
def PDict.vals {α : Type} : PDict α → Vals α
  | .texts d => .texts (d.map Prod.snd)
  | .nums d => .nums (d.map Prod.snd)

/-- 412-444: the group of one dictionary. -/
def saveDict {α : Type} (name : DictName) (d : PDict α) : Except PyErr (DGroup α) :=
  if name = .errors then
    match errorCodes d.vals with
    | .error e => .error e
    | .ok codes => .ok ⟨d.keys, d.vals, some codes⟩
  else .ok ⟨d.keys, d.vals, none⟩

/-- 404-444: the dictionaries. -/
def saveDicts {α : Type} (dict : DictName → Option (PDict α)) :
    List DictName → Except PyErr (List (DictName × DGroup α))
  | [] => .ok []
  | n :: ns => match dict n with
    | none => saveDicts dict ns
    | some d => match saveDict n d with
      | .error e => .error e
      | .ok g => match saveDicts dict ns with
        | .error e => .error e
        | .ok gs => .ok ((n, g) :: gs)

/-- The name `subdom{i}`. -/
def subdomName (i : Nat) : List Char := "subdom".toList ++ natStr i

/-- 448-449, 452-453: the loop over the sub-domains, from index `i`. -/
def saveTps {α : Type} (i : Nat) : List (List α) → H5 (List α) → Except PyErr (H5 (List α))
  | [], g => .ok g
  | a :: as, g => match h5create (subdomName i) a g with
    | .error e => .error e
    | .ok g => saveTps (i + 1) as g

/-- 446-453 -/
def saveTpsPair {α : Type} : Option (List (List α) × List (List α)) →
    Except PyErr (Option (H5 (List α) × H5 (List α)))
  | none => .ok none
  | some (tx, ty) => match saveTps 0 tx [] with
    | .error e => .error e
    | .ok gx => match saveTps 0 ty [] with
      | .error e => .error e
      | .ok gy => .ok (some (gx, gy))

/-- 382-453 `_save_in_hdf5_object` -/
def saveHeavy {α π γ : Type} (r32 : α → α) (tag : List Char) (r : Heavy α π γ) (f : File α π γ) :
    Except PyErr (File α π γ) :=
  let params := match f.params with | some p => some p | none => some r.params
  let couple := match f.couple with | some c => some c | none => some r.couple
  match saveDicts r.dict dictToBeSaved with
  | .error e => .error e
  | .ok dicts => match saveTpsPair r.tps with
    | .error e => .error e
    | .ok tps => match h5create tag ⟨saveArrs r32 r.arr keysToBeSaved, dicts, tps⟩ f.groups with
      | .error e => .error e
      | .ok groups => .ok ⟨params, couple, f.nbPasses, groups⟩

/-- The member `n` of a list of members. -/
def lookup {κ β : Type} [DecidableEq κ] (n : κ) : List (κ × β) → Option β
  | [] => none
  | (m, w) :: l => if m = n then some w else lookup n l

/-- 473-476: the arrays are read one after the other (attributes not in the list stay absent). -/
def loadArrs {α : Type} (g : List (Key × Arr α)) : List Key → (Key → Option (Arr α)) → Key → Option (Arr α)
  | [], at_ => at_
  | k :: ks, at_ => match lookup k g with
    | none => loadArrs g ks at_
    | some a => loadArrs g ks (fun k' => if k' = k then some a else at_ k')

/-- 484-493: `dictionary[key] = value` for the pairs of `zip(keys, values)`.  (Line 486 decodes `k`, a variable of
the previous loop, instead of `key`: it is a text, the `AttributeError` is caught and `key` is unchanged.) -/
def fill {β : Type} : List (Int × β) → Dict Int β → Dict Int β
  | [], d => d
  | (k, v) :: l, d => fill l (Dict.set d k v)

/-- 480-494 -/
def loadDict {α : Type} (g : DGroup α) : PDict α :=
  match g.vals with
  | .texts l => .texts (fill (List.zip g.keys l) [])
  | .nums l => .nums (fill (List.zip g.keys l) [])

/-- 478-497: the dictionaries; an absent group is skipped. -/
def loadDicts {α : Type} (g : List (DictName × DGroup α)) :
    List DictName → (DictName → Option (PDict α)) → DictName → Option (PDict α)
  | [], at_ => at_
  | n :: ns, at_ => match lookup n g with
    | none => loadDicts g ns at_
    | some d => loadDicts g ns (fun n' => if n' = n then some (loadDict d) else at_ n')

/-- 499-507: the arrays in the order of `g.keys()`. -/
def loadTps {α : Type} (g : Group α) : Option (List (List α) × List (List α)) :=
  match g.tps with
  | none => none
  | some (gx, gy) => some (gx.map Prod.snd, gy.map Prod.snd)

/-- 460-507 `_load_from_hdf5_object`, parameters and couple given (294-302). -/
def loadHeavy {α π γ : Type} (params : π) (couple : γ) (g : Group α) : Heavy α π γ :=
  ⟨loadArrs g.arrs keysToBeSaved (fun _ => none), loadDicts g.dicts dictToBeSaved (fun _ => none), loadTps g,
    params, couple⟩

/-! ## Several passes -/

/-- The name `piv{i}`. -/
def passName (i : Nat) : List Char := "piv".toList ++ natStr i

/-- 614-615: the loop over the passes, from index `i`. -/
def savePasses {α π γ : Type} (r32 : α → α) (i : Nat) :
    List (Heavy α π γ) → File α π γ → Except PyErr (File α π γ)
  | [], f => .ok f
  | r :: rs, f => match saveHeavy r32 (passName i) r f with
    | .error e => .error e
    | .ok f => savePasses r32 (i + 1) rs f

/-- 586-617 `save` (HDF5 format): 583 `self.passes[0]` is an `IndexError` for a result without pass. -/
def saveMulti {α π γ : Type} (r32 : α → α) (passes : List (Heavy α π γ)) : Except PyErr (File α π γ) :=
  if passes.isEmpty then .error .indexError
  else savePasses r32 0 passes ⟨none, none, passes.length, []⟩

/-- 633-639: the loop over the passes. -/
def loadPasses {α π γ : Type} (f : File α π γ) (params : π) (couple : γ) :
    List Nat → Except PyErr (List (Heavy α π γ))
  | [] => .ok []
  | ip :: ips => match h5get (passName ip) f.groups with
    | .error e => .error e
    | .ok g => match loadPasses f params couple ips with
      | .error e => .error e
      | .ok rs => .ok (loadHeavy params couple g :: rs)

/-- 619-639 `_load`: `KeyError` if the parameters or the couple are missing. -/
def loadMulti {α π γ : Type} (f : File α π γ) : Except PyErr (List (Heavy α π γ)) :=
  match f.params, f.couple with
  | some p, some c => loadPasses f p c (List.range f.nbPasses)
  | _, _ => .error .keyError

/-! ## Light results -/

/-- 812-817: the attributes of `LightPIVResults` (`correls_max` is never given). -/
structure Light (α π γ : Type) where
  deltaxs_final : Arr α
  deltays_final : Arr α
  ixvecs_final : Arr α
  iyvecs_final : Arr α
  params : π
  couple : γ

/-- Python list indexing. -/
def pyItem {β : Type} (l : List β) (i : Int) : Except PyErr β :=
  let j := if i < 0 then i + l.length else i
  if j < 0 then .error .indexError
  else match l[j.toNat]? with
    | some v => .ok v
    | none => .error .indexError

/-- 718-728: the four arrays; an absent attribute is an `AttributeError`.  Line 728 reads `piv.ixvecs_approx`. -/
def lightArrs {α π γ : Type} (piv : Heavy α π γ) (indPass : Int) : Except PyErr (Arr α × Arr α × Arr α × Arr α) :=
  if indPass = -1 then
    match piv.arr .deltaxs_final, piv.arr .deltays_final, piv.arr .ixvecs_final, piv.arr .iyvecs_final with
    | some dx, some dy, some ix, some iy => .ok (dx, dy, ix, iy)
    | _, _, _, _ => .error .attributeError
  else
    match piv.arr .deltaxs_approx, piv.arr .deltays_approx, piv.arr .ixvecs_approx, piv.arr .ixvecs_approx with
    | some dx, some dy, some ix, some iy => .ok (dx, dy, ix, iy)
    | _, _, _, _ => .error .attributeError

/-- 716-742 `make_light_result` -/
def makeLight {α π γ : Type} (passes : List (Heavy α π γ)) (indPass : Int) : Except PyErr (Light α π γ) :=
  match pyItem passes indPass with
  | .error e => .error e
  | .ok piv => match lightArrs piv indPass with
    | .error e => .error e
    | .ok (dx, dy, ix, iy) => .ok ⟨dx, dy, ix, iy, piv.params, piv.couple⟩

/-- 844-870: the file of light results: one group `piv`, the arrays as they are. -/
def saveLight {α π γ : Type} (l : Light α π γ) : File α π γ :=
  ⟨some l.params, some l.couple, 0, [("piv".toList,
    ⟨[(.ixvecs_final, l.ixvecs_final), (.iyvecs_final, l.iyvecs_final), (.deltaxs_final, l.deltaxs_final),
      (.deltays_final, l.deltays_final)], [], none⟩)]⟩

/-- 882: `"piv" in key` -/
def containsPiv : List Char → Bool
  | [] => false
  | c :: cs => startsWith (c :: cs) "piv".toList || containsPiv cs

/-- Python `max` of texts: the first largest; `ValueError` if there is none. -/
def maxName : List (List Char) → Except PyErr (List Char)
  | [] => .error .valueError
  | n :: ns => .ok (ns.foldl (fun m n => if nameLt m n then n else m) n)

/-- 872-901 `_load`: the group with the largest name containing "piv" (the names `couple` and `params` do not).
The result is the four arrays, `none` when absent (898-901). -/
def loadLight {α π γ : Type} (f : File α π γ) : Except PyErr (Key → Option (Arr α)) :=
  match f.params, f.couple with
  | some _, some _ =>
    match maxName ((f.groups.map Prod.fst).filter containsPiv) with
    | .error e => .error e
    | .ok n => match h5get n f.groups with
      | .error e => .error e
      | .ok g => .ok (loadArrs g.arrs [.ixvecs_final, .iyvecs_final, .deltaxs_final, .deltays_final] (fun _ => none))
  | _, _ => .error .keyError

end Verif.PivResults
