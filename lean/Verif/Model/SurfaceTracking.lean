import Verif.Model.Groups

/-!
# Surface tracking: `/repo/src/fluidimage/topologies/surface_tracking.py`

Queues (numbers of the model): `0` "couples of names", `1` "paths", ..., `p + 1` "angles" (`p` is the number of works
applied to each frame: "read_array", "image2image" when it is used, "process_frame"), `p + 2` "couples of corrected
angles and angles", `p + 3` "corrected angles copy", `p + 4` "corrected angles", `p + 5` "heights and shapes", `p + 6`
"heights".
-/

namespace Verif.Exec
open Verif

variable {κ α ε : Type} [DecidableEq κ]

/-- What the code of `make_couples` uses: tuples of names, `pair x y` is the Python tuple `(x, y)` of two items of
queues (lines 241, 251; an item which is an exception object is put in the tuple as it is), `indexError` is the
exception of `couple[0]` and `couple[1]`. -/
structure TrackOps (κ α ε : Type) extends NameTuples κ α where
  pair : Except ε α → Except ε α → α
  indexError : ε

/-- `/repo/src/fluidimage/topologies/surface_tracking.py:234-255`: the body of the loop of `make_couples`; `a` is the
number of the queue "angles".  `couple[0] is couple[1]` (line 236) is modelled as the equality of the names: the only
tuple containing twice a name is `(name, name)` (line 315).  The `del` statements can not raise: the keys are the ones
which have just been read. -/
def TrackOps.step (O : TrackOps κ α ε) (a : Nat) (key : κ) (couple : Except ε α) (q : Queues κ α ε) :
    Except ε (Queues κ α ε) :=
  match O.names couple with
  | n0 :: n1 :: _ =>
    if n0 = n1 then
      match (q a).get? n0 with
      | none => .ok q
      | some x =>
        let q := upd q (a + 1) ((q (a + 1)).set n0 (.ok (O.pair x x)))
        let q := upd q a ((q a).erase n0)
        .ok (upd q 0 ((q 0).erase key))
    else
      match (q (a + 2)).get? n0, (q a).get? n1 with
      | some x, some y =>
        let q := upd q (a + 1) ((q (a + 1)).set n1 (.ok (O.pair x y)))
        let q := upd q a ((q a).erase n1)
        let q := upd q 0 ((q 0).erase key)
        let q := upd q (a + 3) ((q (a + 3)).set n0 x)
        .ok (upd q (a + 2) ((q (a + 2)).erase n0))
      | _, _ => .ok q
  | _ => .error O.indexError

/-- `/repo/src/fluidimage/topologies/surface_tracking.py:234`: `for key, couple in
tuple(queue_couples_of_names.items())`. -/
def TrackOps.loop (O : TrackOps κ α ε) (a : Nat) : Dict κ (Except ε α) → Queues κ α ε → Except ε (Queues κ α ε)
  | [], q => .ok q
  | (key, couple) :: todo, q =>
    match O.step a key couple q with
    | .error e => .error e
    | .ok q => O.loop a todo q

/-- `/repo/src/fluidimage/topologies/surface_tracking.py:228-230`: `for key in tuple(queue_mod0_angles)`: the corrected
angles of the last frame go to the queue "corrected angles".  (The keys are in the dictionary: the case `none` does
not happen.) -/
def flushMod (a : Nat) : List κ → Queues κ α ε → Queues κ α ε
  | [], q => q
  | k :: ks, q =>
    match (q (a + 2)).get? k with
    | none => flushMod a ks q
    | some x => flushMod a ks (upd (upd q (a + 3) ((q (a + 3)).set k x)) (a + 2) ((q (a + 2)).erase k))

/-- `/repo/src/fluidimage/topologies/surface_tracking.py:221-255` `TopologySurfaceTracking.make_couples`. -/
def TrackOps.makeCouples (O : TrackOps κ α ε) (a : Nat) (q : Queues κ α ε) : Except ε (Queues κ α ε) :=
  let q := if (q 0).isEmpty then flushMod a (q (a + 2)).keys q else q
  if (q a).isEmpty then .ok q else O.loop a (q 0) q

/-- `/repo/src/fluidimage/topologies/surface_tracking.py:185-191`: the global work "create_couple".  Its output queue is
a tuple of two queues: `len(work.output_queue)` is 2. -/
def TrackOps.work (O : TrackOps κ α ε) (a : Nat) : Work κ α ε Unit :=
  .glob (fun q _ => !(q (a + 2)).isEmpty || !(q a).isEmpty || !(q 0).isEmpty) (fun _ => some 2)
    (fun _ q u =>
      match O.makeCouples a q with
      | .error e => .error e
      | .ok q => .ok (q, u, []))

/-- `/repo/src/fluidimage/topologies/surface_tracking.py:135-219`: the queues and works of `TopologySurfaceTracking`
(the order of the queues is not the one of the code).  `ups`: works on each frame up to the angles; `correct`:
"correct_couple_of_phases"; `downs`: "calcul_height", "set_borders_zero" and "save". -/
def trackTopology (O : TrackOps κ α ε) (ups : List (ChainWork κ α ε)) (correct : κ → α → Except ε α)
    (downs : List (ChainWork κ α ε)) : Topology κ α ε Unit where
  nq := ups.length + 4 + downs.length
  works := imageWorks 1 ups ++ O.work (ups.length + 1) ::
    .item (ups.length + 2) (some (ups.length + 3)) false correct :: chainWorks (ups.length + 4) downs
  auxEmpty := fun _ => true

/-- `/repo/src/fluidimage/topologies/surface_tracking.py:157-183`: the works on each frame. -/
def frameWorks (imread : κ → α → Except ε α) (im2im : Option (κ → α → Except ε α))
    (processFrame : κ → α → Except ε α) : List (ChainWork κ α ε) :=
  loadWorks imread im2im ++ [⟨false, processFrame⟩]

/-- `/repo/src/fluidimage/topologies/surface_tracking.py:200-219`: the works on each corrected frame. -/
def heightWorks (calculHeight setBordersZero save : κ → α → Except ε α) : List (ChainWork κ α ε) :=
  [⟨false, calculHeight⟩, ⟨false, setBordersZero⟩, ⟨true, save⟩]

/-- `/repo/src/fluidimage/topologies/surface_tracking.py:135-219`: the topology. -/
def surfaceTopology (O : TrackOps κ α ε) (imread : κ → α → Except ε α) (im2im : Option (κ → α → Except ε α))
    (processFrame correct calculHeight setBordersZero save : κ → α → Except ε α) : Topology κ α ε Unit :=
  trackTopology O (frameWorks imread im2im processFrame) correct (heightWorks calculHeight setBordersZero save)

/-! ## Filling the first queues -/

/-- `/repo/src/fluidimage/topologies/surface_tracking.py:316-317`: one couple of consecutive names per serie, the series
being numbered from `i`; `ckey i` is the key `i` (an integer) of the queue of couples. -/
def couplesFrom (tup : List κ → α) (ckey : Nat → κ) : Nat → List κ → Dict κ (Except ε α)
  | i, a :: b :: l => (ckey i, .ok (tup [a, b])) :: couplesFrom tup ckey (i + 1) (b :: l)
  | _, _ => []

/-- `/repo/src/fluidimage/topologies/surface_tracking.py:298-317`: the couple `(name, name)` of the first frame, with
the key `ind_serie - 1`, and one couple per serie.  Without couple (a single image), nothing is added. -/
def couplesOfNames (tup : List κ → α) (ckey : Nat → κ) : List κ → Dict κ (Except ε α)
  | a :: b :: l => (ckey 0, .ok (tup [a, a])) :: couplesFrom tup ckey 1 (a :: b :: l)
  | _ => []

/-- `/repo/src/fluidimage/topologies/surface_tracking.py:263-317` `fill_queue_paths`, for the images `names` (all
different) in the order of the serie.  `exists_ name`: mode "complete" and the result of `name` is present (lines
277-281); in the other modes it is always false. -/
def trackStart (O : TrackOps κ α ε) (ckey : Nat → κ) (pathOf : κ → α) (exists_ : κ → Bool) (names : List κ) :
    Queues κ α ε := fun i =>
  if i = 0 then couplesOfNames O.tup ckey names
  else if i = 1 then (names.filter (fun n => !exists_ n)).map (fun n => (n, .ok (pathOf n)))
  else []

end Verif.Exec
