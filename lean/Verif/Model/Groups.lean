import Verif.Model.Chain

/-!
# Topologies making groups of images: PIV (couples) and preprocessing (subsets)

Queues (numbers of the model): `0` groups of names, `1` paths, ..., `p + 1` images ready to be used (the queue
"arrays", or "arrays1" when there is an image-to-image work), `p + 2` groups of arrays, ..., the input of the last
work.  `p` is the number of works applied to each image ("read array", and "image2image" when it is used).
-/

namespace Verif.Exec
open Verif

variable {κ α ε : Type} [DecidableEq κ]

/-- The values of the first queue are Python tuples of names: `tup` builds one, `namesOf` reads it. -/
structure NameTuples (κ α : Type) where
  tup : List κ → α
  namesOf : α → List κ
  namesOf_tup : ∀ l, namesOf (tup l) = l

/-- The names of an item of the first queue. -/
def NameTuples.names (N : NameTuples κ α) (r : Except ε α) : List κ :=
  match r with
  | .ok v => N.namesOf v
  | .error _ => []

/-- `/repo/src/fluidimage/topologies/base.py:204-209` `Queue.is_name_in_values`. -/
def NameTuples.isNameInValues (N : NameTuples κ α) : Dict κ (Except ε α) → κ → Bool
  | [], _ => false
  | (_, r) :: d, n => if n ∈ N.names r then true else N.isNameInValues d n

/-- The three queues used by `make_couples` and `make_subsets`: groups of names, arrays, groups of arrays. -/
structure GroupQueues (κ α ε : Type) where
  groups : Dict κ (Except ε α)
  arrays : Dict κ (Except ε α)
  out : Dict κ (Except ε α)

/-! ## PIV: couples -/

/-- What the code of `make_couples` uses: `make key (name0, name1) (array0, array1)` is `ArrayCouple(...)`
(`/repo/src/fluidimage/data_objects/piv.py:78-125`), which may raise; `keyError` and `indexError` are the exceptions
of `del queue[name]` and `couple[1]`. -/
structure CoupleOps (κ α ε : Type) extends NameTuples κ α where
  make : κ → κ × κ → α × α → Except ε α
  keyError : ε
  indexError : ε

/-- `/repo/src/fluidimage/topologies/piv.py:230-233`: `if not queue_couples_of_names.is_name_in_values(name):
del queue_arrays[name]`. -/
def CoupleOps.dropName (O : CoupleOps κ α ε) (s : GroupQueues κ α ε) (n : κ) : Except ε (GroupQueues κ α ε) :=
  if O.isNameInValues s.groups n then .ok s
  else
    match s.arrays.get? n with
    | none => .error O.keyError
    | some _ => .ok { s with arrays := s.arrays.erase n }

/-- `/repo/src/fluidimage/topologies/piv.py:215-225`: the value stored for the couple. -/
def CoupleOps.couple (O : CoupleOps κ α ε) (key n0 n1 : κ) (r0 r1 : Except ε α) : Except ε (Except ε α) :=
  match r0 with
  | .error e => .ok (.error e)
  | .ok a0 =>
    match r1 with
    | .error e => .ok (.error e)
    | .ok a1 =>
      match O.make key (n0, n1) (a0, a1) with
      | .error e => .error e
      | .ok v => .ok (.ok v)

/-- `/repo/src/fluidimage/topologies/piv.py:207-233`: the body of the loop of `make_couples`. -/
def CoupleOps.step (O : CoupleOps κ α ε) (key : κ) (couple : Except ε α) (s : GroupQueues κ α ε) :
    Except ε (GroupQueues κ α ε) :=
  match O.names couple with
  | n0 :: n1 :: _ =>
    match s.arrays.get? n0, s.arrays.get? n1 with
    | some r0, some r1 =>
      match O.couple key n0 n1 r0 r1 with
      | .error e => .error e
      | .ok r =>
        let s := { s with out := s.out.set key r, groups := s.groups.erase key }
        match O.dropName s n0 with
        | .error e => .error e
        | .ok s => O.dropName s n1
    | _, _ => .ok s
  | [n0] =>
    match s.arrays.get? n0 with
    | some _ => .error O.indexError
    | none => .ok s
  | [] => .error O.indexError

/-- `/repo/src/fluidimage/topologies/piv.py:205`: `for key, couple in tuple(queue_couples_of_names.items())`. -/
def CoupleOps.loop (O : CoupleOps κ α ε) : Dict κ (Except ε α) → GroupQueues κ α ε → Except ε (GroupQueues κ α ε)
  | [], s => .ok s
  | (key, couple) :: todo, s =>
    match O.step key couple s with
    | .error e => .error e
    | .ok s => O.loop todo s

/-- `/repo/src/fluidimage/topologies/piv.py:195-233` `TopologyPIV.make_couples`. -/
def CoupleOps.makeCouples (O : CoupleOps κ α ε) (s : GroupQueues κ α ε) : Except ε (GroupQueues κ α ε) :=
  O.loop s.groups s

/-! ## Preprocessing: subsets -/

/-- `make key names arrays` is `ArraySubset(names=names, arrays=arrays, serie=serie)`
(`/repo/src/fluidimage/data_objects/preproc.py:84-115`); an image which could not be loaded is passed as it is, as an
exception object. -/
structure SubsetOps (κ α ε : Type) extends NameTuples κ α where
  make : κ → List κ → List (Except ε α) → Except ε α

/-- `/repo/src/fluidimage/topologies/preproc.py:315-318`: `for key_array in key_arrays: if not
queue_subsets_of_names.is_name_in_values(key_array): del queue_arrays[key_array]`. -/
def SubsetOps.dropUnused (O : SubsetOps κ α ε) (groups : Dict κ (Except ε α)) :
    List κ → Dict κ (Except ε α) → Dict κ (Except ε α)
  | [], arrays => arrays
  | n :: ns, arrays =>
    O.dropUnused groups ns (if O.isNameInValues groups n then arrays else arrays.erase n)

/-- `/repo/src/fluidimage/topologies/preproc.py:304-318`: the body of the loop of `make_subsets`.  The generator
`(queue_arrays[name] for name in names)` is consumed by the constructor of the subset (`tuple(arrays)`), before the
arrays are removed. -/
def SubsetOps.step (O : SubsetOps κ α ε) (key : κ) (names : Except ε α) (s : GroupQueues κ α ε) :
    Except ε (GroupQueues κ α ε) :=
  let ns := O.names names
  if ns.all (fun n => (s.arrays.get? n).isSome) then
    match O.make key ns (ns.filterMap (fun n => s.arrays.get? n)) with
    | .error e => .error e
    | .ok v =>
      let groups := s.groups.erase key
      .ok { groups := groups, arrays := O.dropUnused groups s.arrays.keys s.arrays, out := s.out.set key (.ok v) }
  else .ok s

/-- `/repo/src/fluidimage/topologies/preproc.py:301`: `for key, names in list(queue_subsets_of_names.items())`. -/
def SubsetOps.loop (O : SubsetOps κ α ε) : Dict κ (Except ε α) → GroupQueues κ α ε → Except ε (GroupQueues κ α ε)
  | [], s => .ok s
  | (key, names) :: todo, s =>
    match O.step key names s with
    | .error e => .error e
    | .ok s => O.loop todo s

/-- `/repo/src/fluidimage/topologies/preproc.py:297-318` `TopologyPreproc.make_subsets`. -/
def SubsetOps.makeSubsets (O : SubsetOps κ α ε) (s : GroupQueues κ α ε) : Except ε (GroupQueues κ α ε) :=
  O.loop s.groups s

/-! ## The topologies -/

/-- The works applied to each image: the first one reads the queue `i`, each one writes in the following queue. -/
def imageWorks (i : Nat) : List (ChainWork κ α ε) → List (Work κ α ε Unit)
  | [] => []
  | w :: ws => .item i (some (i + 1)) w.io w.f :: imageWorks (i + 1) ws

/-- The global work, on the queues `0`, `a` (arrays) and `a + 1` (groups of arrays). -/
def groupWork (a : Nat) (make : GroupQueues κ α ε → Except ε (GroupQueues κ α ε)) : Work κ α ε Unit :=
  .glob (fun q _ => !(q 0).isEmpty || !(q a).isEmpty) (fun q => some (q (a + 1)).length)
    (fun _ q u =>
      match make { groups := q 0, arrays := q a, out := q (a + 1) } with
      | .error e => .error e
      | .ok s => .ok (upd (upd (upd q 0 s.groups) a s.arrays) (a + 1) s.out, u, []))

/-- A topology making groups: works on images `pre`, the global work, works on groups `post`. -/
def groupTopology (pre post : List (ChainWork κ α ε))
    (make : GroupQueues κ α ε → Except ε (GroupQueues κ α ε)) : Topology κ α ε Unit where
  nq := pre.length + 2 + post.length
  works := imageWorks 1 pre ++ groupWork (pre.length + 1) make :: chainWorks (pre.length + 2) post
  auxEmpty := fun _ => true

/-- The works on each image: reading, and the image-to-image function if there is one
(`/repo/src/fluidimage/topologies/piv.py:113-132`, `preproc.py:220-237`). -/
def loadWorks (imread : κ → α → Except ε α) (im2im : Option (κ → α → Except ε α)) : List (ChainWork κ α ε) :=
  match im2im with
  | none => [⟨true, imread⟩]
  | some f => [⟨true, imread⟩, ⟨false, f⟩]

/-- `/repo/src/fluidimage/topologies/piv.py:98-158`: the queues and works of `TopologyPIV` (the order of the queues is
not the one of the code: "arrays1" is created last).  The same constructor, with other functions, is used by
`topologies/optical_flow.py` (class `TopologyOpticalFlow`, a subclass of `TopologyPIV`). -/
def pivTopology (imread : κ → α → Except ε α) (im2im : Option (κ → α → Except ε α)) (O : CoupleOps κ α ε)
    (computePiv savePiv : κ → α → Except ε α) : Topology κ α ε Unit :=
  groupTopology (loadWorks imread im2im) [⟨false, computePiv⟩, ⟨true, savePiv⟩] O.makeCouples

/-- `/repo/src/fluidimage/topologies/preproc.py:202-260`: the queues and works of `TopologyPreproc`. -/
def preprocTopology (imread : κ → α → Except ε α) (im2im : Option (κ → α → Except ε α)) (O : SubsetOps κ α ε)
    (preproc saveImages : κ → α → Except ε α) : Topology κ α ε Unit :=
  groupTopology (loadWorks imread im2im) [⟨false, preproc⟩, ⟨true, saveImages⟩] O.makeSubsets

/-! ## Filling the first queues -/

/-- `/repo/src/fluidimage/topologies/piv.py:192-193`, `preproc.py:294-295`: `for name, path in
serie.get_name_path_arrays(): queue_paths[name] = path`.  The path of an image is a function of its name (all the
images are in `series.serie.path_dir`). -/
def fillPaths (pathOf : κ → α) : List κ → Dict κ (Except ε α) → Dict κ (Except ε α)
  | [], d => d
  | n :: ns, d => fillPaths pathOf ns (d.set n (.ok (pathOf n)))

/-- `/repo/src/fluidimage/topologies/piv.py:190-193` `fill_couples_of_names_and_paths`,
`/repo/src/fluidimage/topologies/preproc.py:292-295` `fill_subsets_of_names_and_paths`: `series` is the list of the
couples (index of the serie, names of its images). -/
def fillGroups (N : NameTuples κ α) (pathOf : κ → α) :
    List (κ × List κ) → Dict κ (Except ε α) × Dict κ (Except ε α) → Dict κ (Except ε α) × Dict κ (Except ε α)
  | [], d => d
  | (ind, names) :: series, (groups, paths) =>
    fillGroups N pathOf series (groups.set ind (.ok (N.tup names)), fillPaths pathOf names paths)

/-- The queues after the one-shot work. -/
def groupStart (N : NameTuples κ α) (pathOf : κ → α) (series : List (κ × List κ)) : Queues κ α ε := fun i =>
  if i = 0 then (fillGroups N pathOf series ([], [])).1
  else if i = 1 then (fillGroups N pathOf series ([], [])).2
  else []

end Verif.Exec
