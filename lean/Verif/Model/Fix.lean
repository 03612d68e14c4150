import Verif.Model.MeanNeighbors
import Verif.Model.LoopVectors

/-!
# Model of the work removing the false vectors

`/repo/src/fluidimage/works/piv/fix.py`: 66-243 `WorkFIX.calcul`.

Simplifications: numbers are rationals and NaN is `none`; the two dictionaries `deltaxs_wrong` and `deltays_wrong` always
have the same keys and are one dictionary of couples; an explanation is a list of reasons instead of a text; a square root
is compared through its square; the arrays have `n0 * n1` elements, the number of points of the grid; the sub-pixel
refinement is a parameter.
-/

namespace Verif.Fix
open Verif Verif.PivGrid Verif.Correl Verif.LoopVectors Verif.MeanNeighbors

/-- Parts of the explanations stored in `errors`. -/
inductive Reason where
  | earlier (e : VecErr) | correl | delta | neighbour | diff (d2 : ℚ)
deriving DecidableEq, Repr

/-- `params.fix` (30-39) and `params.piv0.nb_peaks_to_search` -/
structure Params where
  correlMin : ℚ
  threshold : Option ℚ
  displacementMax : Option ℚ
  nbPeaks : Nat

/-- Values of a vector, `none` for NaN. -/
abbrev Vec := Option ℚ × Option ℚ

/-- The attributes of `piv_results` which are read or modified.  `wrong` is `none` if the attributes `deltaxs_wrong` and
`deltays_wrong` do not exist; `replaced` is empty if the attribute `replaced_vectors` does not exist. -/
structure Res where
  dx : Nat → Option ℚ
  dy : Nat → Option ℚ
  correls : Nat → Option ℚ
  errors : Dict Nat (List Reason)
  wrong : Option (Dict Nat Vec)
  replaced : Dict Nat (Option ℚ × Option ℚ × Option ℚ)

/-- The local variables `deltaxs_wrong`, `deltays_wrong` with the results. -/
structure St where
  res : Res
  wrong : Dict Nat Vec

/-- 84-88 (and 74-77): keep the vector in the dictionaries and set it to NaN. -/
def remove (s : St) (i : Nat) : St :=
  { res := { s.res with dx := set1 s.res.dx i none, dy := set1 s.res.dy i none },
    wrong := s.wrong.set i (s.res.dx i, s.res.dy i) }

/-- 73-77: the vectors with an error (`n` is the number of vectors). -/
def removeErrors (n : Nat) : List Nat → St → Except PyErr St
  | [], s => .ok s
  | i :: l, s => if n ≤ i then .error .indexError else removeErrors n l (remove s i)

/-- 79-91 `put_to_nan` -/
def putToNan (why : Reason) : List Nat → St → Except PyErr St
  | [], s => .ok s
  | i :: l, s => match s.wrong.get? i with
    | none =>
      let s' := remove s i
      putToNan why l { s' with res := { s'.res with errors := s'.res.errors.set i [why] } }
    | some _ => match s.res.errors.get? i with
      | none => .error .keyError
      | some e => putToNan why l { s with res := { s.res with errors := s.res.errors.set i (e ++ [why]) } }

/-- `cond.nonzero()[0]` -/
def nonzero (n : Nat) (c : Nat → Bool) : List Nat := (List.range n).filter c

/-- 94: `correls_max < correl_min` (false with NaN) -/
def lowCorrel (p : Params) (r : Res) (i : Nat) : Bool :=
  match r.correls i with
  | none => false
  | some c => decide (c < p.correlMin)

/-- 98: a limit which is `None` or 0 is not used. -/
def usedMax (p : Params) : Option ℚ := match p.displacementMax with
  | none => none
  | some m => if m = 0 then none else some m

/-- `x**2 + y**2` (NaN if one is NaN) -/
def norm2 (x y : Option ℚ) : Option ℚ := match x, y with
  | some x, some y => some (x ^ 2 + y ^ 2)
  | _, _ => none

/-- `x - y` -/
def sub (x y : Option ℚ) : Option ℚ := match x, y with
  | some x, some y => some (x - y)
  | _, _ => none

/-- `a > b` (false with NaN) -/
def gt (a : Option ℚ) (b : ℚ) : Bool := match a with
  | none => false
  | some a => decide (b < a)

/-- 98-103 -/
def fixDelta (n : Nat) (p : Params) (s : St) : Except PyErr St :=
  match usedMax p with
  | none => .ok s
  | some m => putToNan .delta (nonzero n (fun i => gt (norm2 (s.res.dx i) (s.res.dy i)) (m ^ 2))) s

/-- mean_neighbors.py 128-155 on flat arrays -/
def meanFlat (n0 n1 : Nat) (dx dy : Nat → Option ℚ) : Except PyErr ((Nat → Option ℚ) × (Nat → Option ℚ)) :=
  match meanNeighborsXY ⟨n0, n1, fun i j => dx (i * n1 + j)⟩ ⟨n0, n1, fun i j => dy (i * n1 + j)⟩ with
  | .error e => .error e
  | .ok (mx, my) => .ok (fun k => mx.get (k / n1) (k % n1), fun k => my.get (k / n1) (k % n1))

/-- 127-130: the difference is added to the explanations. -/
def explain (d2 : Nat → Option ℚ) : List Nat → Res → Except PyErr Res
  | [], r => .ok r
  | i :: l, r => match r.errors.get? i with
    | none => .error .keyError
    | some e => explain d2 l { r with errors := r.errors.set i (e ++ [.diff ((d2 i).getD 0)]) }

/-- Local variables made by 114-120. -/
structure Neigh where
  mx : Nat → Option ℚ
  my : Nat → Option ℚ
  d2 : Nat → Option ℚ

/-- 105-133; the second value is `none` if the variables do not exist. -/
def fixNeighbours (n0 n1 : Nat) (p : Params) (s : St) : Except PyErr (Res × Option Neigh) :=
  match p.threshold with
  | none => .ok (s.res, none)
  | some t => match meanFlat n0 n1 s.res.dx s.res.dy with
    | .error e => .error e
    | .ok (mx, my) =>
      let d2 := fun i => norm2 (sub (mx i) (s.res.dx i)) (sub (my i) (s.res.dy i))
      let inds := nonzero (n0 * n1) (fun i => gt (d2 i) (t ^ 2))
      match putToNan .neighbour inds s with
      | .error e => .error e
      | .ok s' => match explain d2 inds s'.res with
        | .error e => .error e
        | .ok r => .ok ({ r with wrong := some s'.wrong }, some ⟨mx, my, d2⟩)

/-- 66-133: first part, before the secondary peaks. -/
def detect (n0 n1 : Nat) (p : Params) (r : Res) : Except PyErr (Res × Option Neigh) :=
  match removeErrors (n0 * n1) r.errors.keys ⟨r, []⟩ with
  | .error e => .error e
  | .ok s => match putToNan .correl (nonzero (n0 * n1) (lowCorrel p s.res)) s with
    | .error e => .error e
    | .ok s => match fixDelta (n0 * n1) p s with
      | .error e => .error e
      | .ok s => fixNeighbours n0 n1 p s

/-! ## Secondary peaks -/

/-- `(dx, dy, corr)` -/
structure Peak where
  dx : ℚ
  dy : ℚ
  corr : ℚ
deriving DecidableEq, Repr

/-- 159: `corr / correl0 > ratio_correl_peaks` (`correl0` may be NaN, and a division by zero gives an infinite
value or NaN) -/
def ratioOk (corr : ℚ) (correl0 : Option ℚ) : Bool := match correl0 with
  | none => false
  | some c => if c = 0 then decide (0 < corr) else decide (3 / 5 < corr / c)

/-- 156-164 -/
def goodPeaks (p : Params) (correl0 : Option ℚ) (inp : ℚ × ℚ) : List Peak → List Peak
  | [] => []
  | k :: l => if ratioOk k.corr correl0 ∧ p.correlMin < k.corr then
      ⟨k.dx + inp.1, k.dy + inp.2, k.corr⟩ :: goodPeaks p correl0 inp l
    else goodPeaks p correl0 inp l

/-- `arr.argmin()`: the first NaN if there is one, else the first smallest value; the accumulator is the position and the
value found so far, `pos` the current position. -/
def argminFrom (pos : Nat) (best : Nat × Option ℚ) : List (Option ℚ) → Nat
  | [] => best.1
  | v :: l => match best.2, v with
    | none, _ => best.1
    | some _, none => pos
    | some b, some x => if x < b then argminFrom (pos + 1) (pos, some x) l else argminFrom (pos + 1) best l

def argmin : List (Option ℚ) → Nat
  | [] => 0
  | v :: l => argminFrom 1 (0, v) l

/-- 183-188: `sqrt(d2) > t` -/
def farther (d2 : Option ℚ) (t : ℚ) : Bool := match d2 with
  | none => false
  | some d => decide (t < 0 ∨ t * t < d)

/-- 183-188 -/
def tooFar (p : Params) (d2 : Option ℚ) : Bool := match p.threshold with
  | none => false
  | some t => farther d2 t

/-- 190-194: the square of the length is compared with the maximum, not with its square. -/
def tooLong (p : Params) (k : Peak) : Bool := match usedMax p with
  | none => false
  | some m => decide (m < k.dx ^ 2 + k.dy ^ 2)

/-- What the loop over secondary peaks uses. -/
structure PeakEnv where
  secondary : Nat → Option (List Peak)
  /-- 148-154: `deltaxs_input`, `deltays_input`, if these attributes exist -/
  input : Option ((Nat → ℚ) × (Nat → ℚ))
  /-- 197-203: sub-pixel refinement with the map of the vector -/
  subpix : Nat → ℚ → ℚ → Except SubErr Vec

/-- 148-154 -/
def PeakEnv.inp (env : PeakEnv) (i : Nat) : ℚ × ℚ := match env.input with
  | none => (0, 0)
  | some (ax, ay) => (ax i, ay i)

/-- 172-176: difference (squared) of a peak with the mean of the neighbours -/
def peakDiff (nb : Neigh) (i : Nat) (k : Peak) : Option ℚ :=
  norm2 (sub (nb.mx i) (some k.dx)) (sub (nb.my i) (some k.dy))

/-- 196-236: the vector `i` is replaced by the peak `k`. -/
def replace (env : PeakEnv) (i : Nat) (k : Peak) (r : Res) : Except PyErr Res :=
  match env.subpix i (k.dx - (env.inp i).1) (k.dy - (env.inp i).2) with
  | .error _ => .ok r                                                       -- 202-203
  | .ok v => match r.wrong with
    | none => .error .attributeError                                        -- 214
    | some w =>
      let old := match w.get? i with
        | some o => o
        | none => (r.dx i, r.dy i)
      let r' := { r with
        replaced := r.replaced.set i (old.1, old.2, r.correls i),
        dx := set1 r.dx i (v.1.map (· + (env.inp i).1)), dy := set1 r.dy i (v.2.map (· + (env.inp i).2)),
        correls := set1 r.correls i (some k.corr) }
      match r.errors.get? i with
      | none => .ok r'
      | some _ => match w.get? i with
        | none => .error .keyError
        | some _ => .ok { r' with wrong := some (w.erase i), errors := r.errors.erase i }

/-- 142-236: body of the loop for the vector `i`. -/
def peakBody (p : Params) (env : PeakEnv) (nb : Option Neigh) (i : Nat) (r : Res) : Except PyErr Res :=
  match env.secondary i with
  | none => .ok r
  | some others =>
    let good := goodPeaks p (r.correls i) (env.inp i) others
    if good = [] then .ok r
    else match nb with
      | none => .error .unboundLocalError                                    -- 170: `differences2`
      | some nb =>
        match argmin (nb.d2 i :: good.map (peakDiff nb i)) with
        | 0 => .ok r
        | a + 1 => match good[a]? with
          | none => .error .indexError
          | some k =>
            if tooFar p (peakDiff nb i k) then .ok r
            else if tooLong p k then .ok r
            else replace env i k r

def peakLoop (p : Params) (env : PeakEnv) (nb : Option Neigh) : List Nat → Res → Except PyErr Res
  | [], r => .ok r
  | i :: l, r => match peakBody p env nb i r with
    | .error e => .error e
    | .ok r => peakLoop p env nb l r

/-- 66-243 `calcul` -/
def calcul (n0 n1 : Nat) (p : Params) (env : PeakEnv) (r : Res) : Except PyErr Res :=
  match detect n0 n1 p r with
  | .error e => .error e
  | .ok (r, nb) => if p.nbPeaks < 2 then .ok r else peakLoop p env nb (List.range (n0 * n1)) r

end Verif.Fix
