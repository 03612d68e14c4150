import Verif.Model.Multipass

/-!
# Model of a work of PIV used by several threads

The asynchronous executor runs a work in threads (`/repo/src/fluidimage/executors/exec_async.py` 245 and 298,
`trio.to_thread.run_sync(work.func_or_cls, arg)`); the function is the method `calcul` of one object `WorkPIV`
(`/repo/src/fluidimage/topologies/piv.py` 143-151), so that several couples are computed at the same time with the same object.
(`exec_async_sequential.py` 65, used by the multi executors, calls the function without thread.)

The shared memory is made of the attributes written by `calcul`: those of `_prepare_with_image` and `_pad_images`
(`/repo/src/fluidimage/works/piv/singlepass.py` 108-141, 196-211), and the two buffers of the FFT
(`/repo/src/fluidimage/calcul/fft.py` 205-244).  `/repo/src/fluidimage/works/piv/singlepass.py` 143-190, 230-290, 733-785,
`/repo/src/fluidimage/calcul/correl.py` 648-690, `/repo/src/fluidimage/works/piv/multipass.py` 172-190.

Simplifications.  What is computed without the shared memory is given by functions (`Env`), which are those of
`Model/WholePiv.lean`.  One step of a thread is one access to an attribute or one operation on a buffer (in reality the operations
on a buffer can overlap, which gives more behaviours); an attribute read several times in a row is read once.  The attributes
which are set by the constructors do not change.
-/

namespace Verif.Threads
open Verif Verif.PivGrid Verif.Multipass

/-! ## Threads with a shared memory -/

/-- What a thread has still to do: it has returned, or its next step changes the memory with `upd`, and what follows depends on the
memory before this step. -/
inductive Prog (S A : Type) where
  | done (a : A)
  | op (upd : S → S) (next : S → Prog S A)

variable {S A : Type}

/-- A thread alone: the memory at the end and what is returned. -/
def Prog.alone : Prog S A → S → S × A
  | .done a, s => (s, a)
  | .op upd next, s => (next s).alone (upd s)

/-- One step of the thread `i`. -/
def turn (x : S × List (Prog S A)) (i : Nat) : S × List (Prog S A) :=
  match x.2[i]? with
  | some (.op upd next) => (upd x.1, x.2.set i (next x.1))
  | _ => x

/-- An execution: the list gives the thread which does each step (nothing happens if it has returned). -/
def exec (x : S × List (Prog S A)) (sched : List Nat) : S × List (Prog S A) := sched.foldl turn x

/-! ## The shared memory -/

/-- The attributes of the work of one pass which are written by `calcul`, and the buffers of its FFT (`R` real arrays, `K` arrays of
Fourier coefficients). -/
structure Attrs (R K : Type) where
  imshape : Option (Nat × Nat)
  ixvecs : Option (List Int)
  iyvecs : Option (List Int)
  ixGrid : Option (List Int)
  iyGrid : Option (List Int)
  npad : Option Nat
  arrayX : R
  arrayK : K

/-- The works of the passes of a `WorkPIV` (multipass.py 107-170). -/
abbrev Obj (R K : Type) := Nat → Attrs R K

/-- The objects used for the FFT (fft.py 205-267). -/
inductive Lib where
  | fftw
  | numpy
deriving DecidableEq

/-- What does not use the shared memory.  `forward` and `backward`: the transforms; `prod`: `fft_im0.conj() * fft_im1`, with the
mean set to zero, and `map`: the correlation and its norm (correl.py 654-662, 677-685).  The others: see `Multipass.Passes`; the
windows are those which have the right shape. -/
structure Env (C D R K M : Type) where
  lib : Lib
  forward : R → K
  backward : K → R
  prod : K → K → K
  map : K → K → R → M
  mask : C → Except PyErr C
  shape : C → Nat × Nat
  npad : Work → Nat
  firstWindows : Work → List (Int × Int) → Nat → C → Except PyErr (List (R × R))
  firstResult : Work → List (Int × Int) → C → List M → Except PyErr D
  interp : Work → Grid → D → Except PyErr D
  laterWindows : Work → List (Int × Int) → Nat × Nat → Nat → C → D → Except PyErr (List (R × R))
  laterResult : Work → List (Int × Int) → Nat × Nat → C → D → List M → Except PyErr D
  fix : Work → List Int → List Int → D → Except PyErr D
  final : Work → Grid → D → Final D

variable {C D R K M B α : Type}

/-- A part of `calcul`. -/
abbrev Part (R K B : Type) := Prog (Obj R K) (Except PyErr B)

/-- `self.attribute` for the work of the pass `p`. -/
def read (p : Nat) (f : Attrs R K → Option α) (k : α → Part R K B) : Part R K B :=
  .op id fun s => match f (s p) with
    | none => .done (.error .attributeError)
    | some a => k a

/-- `self.attribute = value` for the work of the pass `p`, or an operation on its buffers. -/
def write (p : Nat) (g : Attrs R K → Attrs R K) (k : Part R K B) : Part R K B :=
  .op (fun s => Function.update s p (g (s p))) fun _ => k

/-- fft.py 236-239: the field is copied in the buffer, transformed from one buffer to the other, and the result is copied.  With numpy
(262-263): a function. -/
def fft (E : Env C D R K M) (p : Nat) (x : R) (k : K → Part R K B) : Part R K B :=
  match E.lib with
  | .numpy => k (E.forward x)
  | .fftw => write p (fun a => { a with arrayX := x }) (write p (fun a => { a with arrayK := E.forward a.arrayX })
      (.op id fun s => k (s p).arrayK))

/-- fft.py 241-244, 265-266 -/
def ifft (E : Env C D R K M) (p : Nat) (y : K) (k : R → Part R K B) : Part R K B :=
  match E.lib with
  | .numpy => k (E.backward y)
  | .fftw => write p (fun a => { a with arrayK := y }) (write p (fun a => { a with arrayX := E.backward a.arrayK })
      (.op id fun s => k (s p).arrayX))

/-- correl.py 648-662, 670-685 -/
def correl (E : Env C D R K M) (p : Nat) (w : R × R) (k : M → Part R K B) : Part R K B :=
  fft E p w.1 fun k0 => fft E p w.2 fun k1 => ifft E p (E.prod k0 k1) fun c => k (E.map k0 k1 c)

/-- singlepass.py 282-316: the correlations of all the windows. -/
def loop (E : Env C D R K M) (p : Nat) : List (R × R) → (List M → Part R K B) → Part R K B
  | [], k => k []
  | w :: ws, k => correl E p w fun m => loop E p ws fun ms => k (m :: ms)

/-- singlepass.py 108-141 `_prepare_with_image` -/
def prepare (w : Work) (p : Nat) (sh : Nat × Nat) (k : Part R K B) : Part R K B :=
  write p (fun a => { a with imshape := some sh }) (match prepareGrid w sh with
    | .error e => .done (.error e)
    | .ok g => write p (fun a => { a with ixvecs := some g.ixvecs }) (write p (fun a => { a with iyvecs := some g.iyvecs })
        (write p (fun a => { a with ixGrid := some (g.points.map Prod.fst) })
          (write p (fun a => { a with iyGrid := some (g.points.map Prod.snd) }) k))))

/-- singlepass.py 159-160, 747-748 -/
def withGrid (w : Work) (p : Nat) (sh : Nat × Nat) (k : Part R K B) : Part R K B :=
  .op id fun s => if (s p).ixGrid.isSome then k else prepare w p sh k

/-- fix.py 105-113, in multipass.py 182 -/
def fixed (E : Env C D R K M) (w : Work) (p : Nat) (d : D) (k : D → Part R K B) : Part R K B :=
  read p Attrs.ixvecs fun vx => read p Attrs.iyvecs fun vy => match E.fix w vx vy d with
    | .error e => .done (.error e)
    | .ok d => k d

/-- singlepass.py 159-190 (248-260: positions of the windows) and multipass.py 182, for the masked couple `c`. -/
def first (E : Env C D R K M) (w : Work) (p : Nat) (c : C) (k : D → Part R K B) : Part R K B :=
  withGrid w p (E.shape c) (write p (fun a => { a with npad := some (E.npad w) })
    (read p Attrs.ixGrid fun xs => read p Attrs.npad fun n => read p Attrs.iyGrid fun ys =>
      match E.firstWindows w (xs.zip ys) n c with
      | .error e => .done (.error e)
      | .ok wins => loop E p wins fun ms => match E.firstResult w (xs.zip ys) c ms with
        | .error e => .done (.error e)
        | .ok d => fixed E w p d k))

/-- singlepass.py 747-785 (750: `apply_interp`, 822-863: positions of the windows) and multipass.py 182: the previous result `d`
completed, and the new one. -/
def later (E : Env C D R K M) (w : Work) (p : Nat) (c : C) (d : D) (k : D → D → Part R K B) : Part R K B :=
  withGrid w p (E.shape c) (read p Attrs.ixGrid fun xs => read p Attrs.iyGrid fun ys => read p Attrs.ixvecs fun vx =>
    read p Attrs.iyvecs fun vy => match E.interp w ⟨vx, vy, xs.zip ys⟩ d with
      | .error e => .done (.error e)
      | .ok d' => write p (fun a => { a with npad := some (E.npad w) })
          (read p Attrs.ixGrid fun xs => read p Attrs.iyGrid fun ys => read p Attrs.imshape fun sh => read p Attrs.npad fun n =>
            match E.laterWindows w (xs.zip ys) sh n c d' with
            | .error e => .done (.error e)
            | .ok wins => loop E p wins fun ms => match E.laterResult w (xs.zip ys) sh c d' ms with
              | .error e => .done (.error e)
              | .ok x => fixed E w p x (k d')))

/-- multipass.py 185-188 -/
def finish (E : Env C D R K M) (w : Work) (p : Nat) (d : D) (k : D → Part R K B) : Part R K B :=
  read p Attrs.ixGrid fun xs => read p Attrs.iyGrid fun ys => read p Attrs.ixvecs fun vx => read p Attrs.iyvecs fun vy =>
    match E.final w ⟨vx, vy, xs.zip ys⟩ d with
    | .done d => k d
    | .interpError d => k d
    | .raised e => .done (.error e)

/-- multipass.py 180-190 after the pass `p` of the work `last`; `d` is its result, `acc` the results of the passes before. -/
def laters (E : Env C D R K M) (c : C) (p : Nat) (last : Work) (d : D) (acc : List D) : List Work → Part R K (List D)
  | [] => finish E last p d fun d => .done (.ok (acc ++ [d]))
  | w :: ws => later E w (p + 1) c d fun d d' => laters E c (p + 1) w d' (acc ++ [d]) ws

/-- multipass.py 172-190 `calcul`; the couple belongs to the thread. -/
def calcul (E : Env C D R K M) (c : C) : List Work → Part R K (List D)
  | [] => .done (.error .unboundLocalError)
  | w :: ws => match E.mask c with
    | .error e => .done (.error e)
    | .ok c => first E w 0 c fun d => laters E c 0 w d [] ws

/-- An object which has just been built: no attribute is set, the buffers contain anything. -/
def newObj (x : R) (y : K) : Obj R K := fun _ => ⟨none, none, none, none, none, none, x, y⟩

end Verif.Threads
