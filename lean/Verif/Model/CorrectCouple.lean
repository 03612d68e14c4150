import Mathlib.Analysis.SpecialFunctions.Trigonometric.Basic

/-!
# Model of the correction of a couple of phase maps

`/repo/src/fluidimage/works/surface_tracking.py:670-681` `correctcouple`.
-/

namespace Verif.CorrectCouple
open Real

/-- surface_tracking.py:676-680, the loop `while abs(jump) > np.pi`; at most `n` rounds (`none`: not finished).  `rnd`
is the rounding of the results of the operations (the identity for exact arithmetic), `p` is the reference pixel, `pi2`
is the value of `2 * math.pi`; `np.sign(jump) * 2 * math.pi` is exact. -/
noncomputable def loop {ι : Type} (rnd : ℝ → ℝ) (pi1 : ℝ) (anglemod : ι → ℝ) (p : ι) : ℕ → (ι → ℝ) → ℝ → Option (ι → ℝ)
  | n, correct, jump =>
    if |jump| > pi1 then
      match n with
      | 0 => none
      | n + 1 =>
        let correct' : ι → ℝ := fun x => rnd (correct x - SignType.sign jump * 2 * pi1)
        loop rnd pi1 anglemod p n correct' (rnd (correct' p - anglemod p))
    else some correct

/-- surface_tracking.py:670-681.  `anglemod`: the corrected map of the previous frame, `angle`: the map to correct.  The
shape, which is returned unchanged, is not modelled, nor the computation of the indices of the reference pixel. -/
noncomputable def correctCouple {ι : Type} (rnd : ℝ → ℝ) (pi1 : ℝ) (anglemod angle : ι → ℝ) (p : ι) (n : ℕ) :
    Option (ι → ℝ) :=
  loop rnd pi1 anglemod p n angle (rnd (angle p - anglemod p))

end Verif.CorrectCouple
