import Mathlib.Data.Rat.Floor
import Verif.Py.Text

/-!
# Model of the formatting of durations

`/repo/src/fluidimage/util/util.py:138-144`.  A duration is a rational number (every finite float is one); `divmod` is
exact.
-/

namespace Verif.TimeFormat
open Verif Verif.Text

/-- The integer nearest to `x`, the even one if there are two (rounding of `format(x, ".2f")`). -/
def roundEven (x : ℚ) : Int :=
  let n := ⌊x⌋
  if x - n < 1 / 2 then n
  else if 1 / 2 < x - n then n + 1
  else if n % 2 = 0 then n else n + 1

/-- `f"{n:02}"` for a natural number. -/
def pad2 (n : Nat) : List Char := if n < 10 then '0' :: natStr n else natStr n

/-- `f"{x:.2f}"` for `x ≥ 0` -/
def fixed2 (x : ℚ) : List Char :=
  let r := (roundEven (x * 100)).toNat
  natStr (r / 100) ++ '.' :: pad2 (r % 100)

/-- util.py:138-144 `format_time_in_seconds` (non-negative durations). -/
def formatTime (d : ℚ) : List Char :=
  if d < 60 then fixed2 d ++ [' ', 's']
  else
    let hours := ⌊d / 3600⌋
    let remainder := d - 3600 * hours
    let minutes := ⌊remainder / 60⌋
    let seconds := remainder - 60 * minutes
    pad2 hours.toNat ++ ':' :: pad2 minutes.toNat ++ ':' :: pad2 ⌊seconds⌋.toNat

end Verif.TimeFormat
