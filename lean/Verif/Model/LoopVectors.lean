import Verif.Model.Correl
import Verif.Py.Dict

/-!
# Model of the loop over the vectors of a PIV pass

`/repo/src/fluidimage/works/piv/singlepass.py`: 262-361 `_loop_vectors`, and
`/repo/src/fluidimage/calcul/subpix.py`: 105-218 `compute_subpix`, `/repo/src/fluidimage/calcul/correl.py`: 277-281
`apply_subpix`.

Simplifications: the values are rationals or NaN (`none`); the correlation of two windows and the formulas of the
sub-pixel methods are parameters; the maps are values, and the function searching the peaks returns the map which the
code modifies in place.
-/

namespace Verif.LoopVectors
open Verif Verif.PivGrid Verif.Correl

/-! ## Sub-pixel refinement -/

inductive Method where
  | gaussian | gaussian2 | centroid | noSubpix
deriving DecidableEq, Repr

/-- Explanations of the errors of the sub-pixel refinement. -/
inductive SubErr where
  | closeBoundary | wrongSubpix
deriving DecidableEq, Repr

/-- The formulas, as functions of the map and of the indices `(ix, iy)`: they give `(deplx, deply)`, `none` for NaN.
`gaussian` gives `none` also when the code goes back to the centroid because of the signs of the coefficients
(160-163, 170-173). -/
structure Formulas where
  gaussian : Map → Int → Int → Option (ℚ × ℚ)
  gaussian2 : Map → Int → Int → Option (ℚ × ℚ)
  centroid : Map → Int → Int → Option (ℚ × ℚ)

/-- 203: the test of the size of the displacement (false with NaN). -/
def tooLarge (n : Nat) (d : Option (ℚ × ℚ)) : Bool :=
  match d with
  | none => false
  | some d => decide (2 * (1 / 2 + (n : ℚ)) ^ 2 < d.1 ^ 2 + d.2 ^ 2)

/-- 137-145: is the neighbourhood of half size `n` outside of the map? -/
def closeBoundary (c : Map) (n : Nat) (ix iy : Int) : Bool :=
  decide (iy - n < 0 ∨ iy + n + 1 > c.ny ∨ ix - n < 0 ∨ ix + n + 1 > c.nx)

/-- 189-218 for the method "centroid": second part of `compute_subpix`. -/
def finish (n : Nat) (ix iy : Int) (d : Option (ℚ × ℚ)) : Except SubErr (Option (ℚ × ℚ)) :=
  if tooLarge n d then .error .wrongSubpix
  else .ok (d.map (fun d => (d.1 + ix, d.2 + iy)))

/-- 105-218 `compute_subpix`: indices with a fractional part. -/
def computeSubpix (f : Formulas) (m : Method) (n : Nat) (c : Map) (ix iy : Int) : Except SubErr (Option (ℚ × ℚ)) :=
  if closeBoundary c n ix iy then .error .closeBoundary
  else
    let viaCentroid := finish n ix iy (f.centroid c ix iy)
    match m with
    | .gaussian => match f.gaussian c ix iy with
      | none => viaCentroid                                            -- 160-163, 170-173
      | some d => finish n ix iy (some d)
    | .gaussian2 =>
      if tooLarge n (f.gaussian2 c ix iy) then viaCentroid              -- 205-208
      else .ok ((f.gaussian2 c ix iy).map (fun d => (d.1 + ix, d.2 + iy)))
    | .centroid => viaCentroid
    | .noSubpix => finish n ix iy (some (0, 0))

/-- correl.py 277-281 `apply_subpix` -/
def applySubpix (f : Formulas) (m : Method) (n : Nat) (k : Cls) (dx dy : Int) (c : Map) :
    Except SubErr (Option (ℚ × ℚ)) :=
  match computeSubpix f m n c (k.indices dx dy).1 (k.indices dx dy).2 with
  | .error e => .error e
  | .ok r => .ok (r.map (fun r => ((k.ix0 : ℚ) - r.1, (k.iy0 : ℚ) - r.2)))

/-! ## Loop over the vectors -/

/-- Explanations in the dictionary `errors`. -/
inductive VecErr where
  | badShape | peak (m : Msg) | subpix (e : SubErr)
deriving DecidableEq, Repr

/-- The parts of the work used by the loop. -/
structure Env where
  /-- 291-294: shapes of the windows -/
  n0 : Nat
  n1 : Nat
  m0 : Nat
  m1 : Nat
  /-- 314: the correlation and its norm -/
  corr : Img Int → Img Int → Map × ℚ
  /-- 325: search of the peaks; also returns the map, modified in place -/
  peaks : Map → ℚ → Except (Err Displ) (Displ × Option (List Displ) × Map)
  /-- 280, 334-338: sub-pixel refinement (only in the last pass) -/
  subpix : Option (Int → Int → Map → Except SubErr (Option (ℚ × ℚ)))

/-- The arrays and dictionary filled by the loop (273-278).  The arrays made by `np.empty` have an unknown content. -/
structure State where
  deltaxs : Nat → Option ℚ
  deltays : Nat → Option ℚ
  correlsMax : Nat → Option ℚ
  errors : Dict Nat VecErr
  secondaryPeaks : Nat → Option (List Displ)

/-- 288-346: body of the loop for the vector `ivec` with windows `w` (288-289: the windows cropped in the padded
images). -/
def body (env : Env) (ivec : Nat) (w : Img Int × Img Int) (s : State) : Except PyErr State :=
  if ¬ (w.1.ny = env.n0 ∧ w.1.nx = env.n1) ∨ ¬ (w.2.ny = env.m0 ∧ w.2.nx = env.m1) then
    .ok { s with deltaxs := set1 s.deltaxs ivec none, deltays := set1 s.deltays ivec none,
                 correlsMax := set1 s.correlsMax ivec none, errors := s.errors.set ivec .badShape }
  else
    let cn := env.corr w.1 w.2
    match env.peaks cn.1 cn.2 with
    | .error (.py e) => .error e
    | .error (.piv m d) =>
      .ok { s with deltaxs := set1 s.deltaxs ivec (some d.dx), deltays := set1 s.deltays ivec (some d.dy),
                   correlsMax := set1 s.correlsMax ivec d.correlMax, errors := s.errors.set ivec (.peak m) }
    | .ok (d, other, c) =>
      let fill := fun (errors : Dict Nat VecErr) (dx dy : Option ℚ) =>
        { s with deltaxs := set1 s.deltaxs ivec dx, deltays := set1 s.deltays ivec dy,
                 correlsMax := set1 s.correlsMax ivec d.correlMax, errors := errors,
                 secondaryPeaks := set1 s.secondaryPeaks ivec other }
      match env.subpix with
      | none => .ok (fill s.errors (some d.dx) (some d.dy))
      | some f => match f d.dx d.dy c with
        | .error e => .ok (fill (s.errors.set ivec (.subpix e)) (some d.dx) (some d.dy))
        | .ok r => .ok (fill s.errors (r.map Prod.fst) (r.map Prod.snd))

/-- 282: the loop, from the vector `ivec`. -/
def loop (env : Env) : Nat → List (Img Int × Img Int) → State → Except PyErr State
  | _, [], s => .ok s
  | ivec, w :: ws, s => match body env ivec w s with
    | .error e => .error e
    | .ok s => loop env (ivec + 1) ws s

/-- 273-278: initial state; `junk` is the content of the arrays made by `np.empty`. -/
def State.init (junk : Nat → Option ℚ) : State := ⟨junk, junk, junk, [], fun _ => none⟩

/-- 348-350: addition of the estimated displacements. -/
def addInput (inp : Option ((Nat → ℚ) × (Nat → ℚ))) (s : State) : State :=
  match inp with
  | none => s
  | some (ax, ay) => { s with deltaxs := fun i => (s.deltaxs i).map (· + ax i), deltays := fun i => (s.deltays i).map (· + ay i) }

/-- 262-361 `_loop_vectors` -/
def loopVectors (env : Env) (junk : Nat → Option ℚ) (ws : List (Img Int × Img Int))
    (inp : Option ((Nat → ℚ) × (Nat → ℚ))) : Except PyErr State :=
  match loop env 0 ws (State.init junk) with
  | .error e => .error e
  | .ok s => .ok (addInput inp s)

/-- The search of the peaks with a class based on FFT, as a parameter of the loop (the map modified in place is not
needed by the theorems about it and is given by `c`). -/
def fftPeaks (n0 n1 : Nat) (dmax : Option ℚ) (radius nbPeaks : Nat) (c : Map) (norm : ℚ) :
    Except (Err Displ) (Displ × Option (List Displ) × Map) :=
  match fftDisplacements n0 n1 dmax radius nbPeaks c norm with
  | .error e => .error e
  | .ok (d, o) => .ok (d, o, c)

end Verif.LoopVectors
